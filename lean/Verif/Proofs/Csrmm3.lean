/-
Scaling, symmetric kernels, and kernel results as matrix products.
-/
import Verif.Proofs.Csrmm2

namespace Verif
open Model Finset

variable {R : Type} [CommSemiring R] [DecidableEq R]
variable {alpha beta : R} {A : Csr R} {B : List R} {n ldb ldc : Nat}

/-! ### products from cells -/

/-- (major, minor) coordinates of element (i, j) -/
theorem mmOff_eq (col : Bool) (ld i j : Nat) :
    denseOff col ld i j = (if col then j else i) * ld + (if col then i else j) := by
  cases col <;> simp [denseOff]; ring

theorem isMm_of_done {col : Bool} {M : Mat R} {m k : Nat} {C C' : List R} {g : Nat → Nat → R → R}
    (hld : (if col then m else n) ≤ ldc)
    (hC : ∀ i j, i < m → j < n → denseOff col ldc i j < C.length)
    (h : Rep C' C.length (doneF ldc (fun a b => a < (if col then n else m) ∧ b < (if col then m else n))
      g (fun p => C.getD p 0)))
    (hg : ∀ i j v, i < m → j < n → g (if col then j else i) (if col then i else j) v
      = alpha * (∑ l ∈ range k, M i l * B.getD (denseOff col ldb l j) 0) + beta * v) :
    IsMm col alpha beta M m k n ldb ldc B C C' := by
  refine ⟨h.1, ?_, ?_⟩
  · intro i j hi hj
    rw [h.2 _ (hC i j hi hj), ← hg i j _ hi hj]
    congr 1
    rw [mmOff_eq]
    refine doneF_in ?_ ?_ _ _
    · cases col <;> simp at hld ⊢ <;> omega
    · cases col <;> simp [hi, hj]
  · intro p hp
    by_cases hl : p < C.length
    · rw [h.2 p hl]
      unfold doneF
      rw [if_neg]
      · simp [hl]
      · rintro ⟨h1, h2⟩
        have hd := Nat.div_add_mod p ldc
        refine hp (if col then p % ldc else p / ldc) (if col then p / ldc else p % ldc) ?_ ?_ ?_
        · cases col <;> simp at h1 h2 ⊢ <;> omega
        · cases col <;> simp at h1 h2 ⊢ <;> omega
        · rw [mmOff_eq, Nat.mul_comm] at *
          cases col <;> simp <;> rw [Nat.mul_comm] <;> omega
    · rw [List.getElem?_eq_none (by rw [h.1]; omega), List.getElem?_eq_none (by omega)]

theorem mmDot_eq (cj : R →+ R) (hA : A.WF) (col : Bool) (i j : Nat) :
    mmDot col cj A B ldb i j
      = ∑ l ∈ range A.n, cj (A.mat i l) * B.getD (denseOff col ldb l j) 0 :=
  filter_sum_map cj (A.row i) A.n (fun l => B.getD (denseOff col ldb l j) 0)
    (fun e he => Csr.row_range hA he)

/-- a kernel of the dispatch table with sound registers -/
def Model.MmKernel.Ok : MmKernel R → Prop
  | .ref => True
  | .kt K V => V.Ok K

/-- the team computes the chunk boundaries without overflow -/
structure Model.MmTeam.Ok (w : Nat) (tm : MmTeam) (dim : Nat) : Prop where
  pos : 0 < tm.T
  fits : (dim : Int) * tm.T ≤ intMax w
  ord : tm.ord.Perm (List.range tm.T)

/-- any kernel computes the product with the stored matrix -/
theorem mmKernel_ok {w : Nat} {tm : MmTeam} {ker : MmKernel R} (hk : ker.Ok) {col : Bool}
    (htm : tm.Ok w (if col then n else A.m)) (cj : R →+ R) (hA : A.WF) (hn : 0 < n)
    (hld : (if col then A.m else n) ≤ ldc)
    (hB : ∀ l j, l < A.n → j < n → denseOff col ldb l j < B.length) {C : List R}
    (hC : ∀ i j, i < A.m → j < n → denseOff col ldc i j < C.length) :
    ∃ C', mmKernel w tm ker col (mmOf cj alpha beta A B n ldb ldc) C = some C' ∧
      IsMm col alpha beta (fun i j => cj (A.mat i j)) A.m A.n n ldb ldc B C C' := by
  obtain ⟨h1, h2, h3⟩ := htm
  cases col
  · simp only [Bool.false_eq_true, if_false] at h2 hld
    have key : ∀ C', Rep C' C.length (doneF ldc (fun a b => a < A.m ∧ b < n)
        (cellRow cj alpha beta A B ldb) (fun p => C.getD p 0)) →
        IsMm false alpha beta (fun i j => cj (A.mat i j)) A.m A.n n ldb ldc B C C' := by
      intro C' h
      refine isMm_of_done (g := cellRow cj alpha beta A B ldb) (by simpa using hld) hC (by simpa using h) ?_
      intro i j v _ _
      simp only [Bool.false_eq_true, if_false, cellRow, mmDot_eq cj hA]
    cases ker with
    | ref =>
      obtain ⟨C', e, r⟩ := mmRowRef_ok (cj := cj) (alpha := alpha) (beta := beta) h1 h2 h3 hA hld hn hB hC
      exact ⟨C', e, key C' r⟩
    | kt K V =>
      obtain ⟨C', e, r⟩ := mmRowKt_ok (cj := cj) (alpha := alpha) (beta := beta) (K := K) hk.1 h1 h2 h3 hA hld hn
        hB hC
      exact ⟨C', e, key C' r⟩
  · simp only [if_true] at h2 hld
    have key : ∀ C', Rep C' C.length (doneF ldc (fun a b => a < n ∧ b < A.m)
        (cellCol cj alpha beta A B ldb) (fun p => C.getD p 0)) →
        IsMm true alpha beta (fun i j => cj (A.mat i j)) A.m A.n n ldb ldc B C C' := by
      intro C' h
      refine isMm_of_done (g := cellCol cj alpha beta A B ldb) (by simpa using hld) hC (by simpa using h) ?_
      intro i j v _ _
      simp only [if_true, cellCol, mmDot_eq cj hA]
    cases ker with
    | ref =>
      obtain ⟨C', e, r⟩ := mmColRef_ok (cj := cj) (alpha := alpha) (beta := beta) h1 h2 h3 hA hld hB hC
      exact ⟨C', e, key C' r⟩
    | kt K V =>
      obtain ⟨C', e, r⟩ := mmColKt_ok (cj := cj) (alpha := alpha) (beta := beta) hk h1 h2 h3 hA hld
        hB hC (fun x => mul_comm _ _)
      exact ⟨C', e, key C' r⟩

/-! ### scaling -/

theorem mmIx_eq (col : Bool) (ld i j : Nat) : mmIx col ld i j = ((denseOff col ld i j : Nat) : Int) := by
  unfold mmIx denseOff
  cases col <;> simp; ring

/-- a double loop over (major, minor) that multiplies each cell by `beta` -/
theorem scale2 {M N ld len : Nat} (hN : N ≤ ld) {f : Nat → R}
    (body : Int → Int → List R → Option (List R))
    (hlen : ∀ a b, a < M → b < N → a * ld + b < len)
    (hbody : ∀ (a b : Nat) C v, a < M → b < N → rd C ((a * ld + b : Nat) : Int) = some v →
      body a b C = wr C ((a * ld + b : Nat) : Int) (beta * v)) {C : List R} (hC : Rep C len f) :
    ∃ C', forC 0 (M : Int) (fun a C => forC 0 (N : Int) (fun b C => body a b C) C) C = some C' ∧
      Rep C' len (doneF ld (fun a b => a < M ∧ b < N) (fun _ _ v => beta * v) f) := by
  refine forC_inv_nat (n := M) (s := C)
    (P := fun a C => Rep C len (doneF ld (fun x b => x < a ∧ b < N) (fun _ _ v => beta * v) f))
    (hC.congr (fun k _ => by unfold doneF; rw [if_neg (fun h => Nat.not_lt_zero _ h.1)])) ?_
  intro a C ha hC
  obtain ⟨C', e, r⟩ := forC_inv_nat (n := N) (s := C) (f := fun b C => body a b C)
    (P := fun b C => Rep C len (doneF ld (fun x y => (x < a ∧ y < N) ∨ (x = a ∧ y < b))
      (fun _ _ v => beta * v) f))
    (hC.congr (fun k _ => doneF_congr (fun x y => by omega) k)) (by
      intro b C hb hC
      obtain ⟨g1, g2⟩ := doneF_step (a := a) (b := b) (by omega) (hlen a b ha hb) hC (by omega) rfl
      obtain ⟨C', g3, g4⟩ := g2 _ rfl
      exact ⟨C', by rw [hbody a b C _ ha hb g1]; exact g3,
        g4.congr (fun k _ => doneF_congr (fun x y => by omega) k)⟩)
  exact ⟨C', e, r.congr (fun k _ => doneF_congr (fun x y => by omega) k)⟩

theorem scaleDense_ok {col : Bool} {m : Nat} {C : List R} (hld : (if col then m else n) ≤ ldc)
    (hC : ∀ i j, i < m → j < n → denseOff col ldc i j < C.length) :
    ∃ C', scaleDense col m n ldc beta C = some C' ∧
      Rep C' C.length (doneF ldc
        (fun a b => a < (if col then n else m) ∧ b < (if col then m else n))
        (fun _ _ v => beta * v) (fun p => C.getD p 0)) := by
  have hcell : ∀ (i j : Nat) (C : List R) v, rd C ((denseOff col ldc i j : Nat) : Int) = some v →
      (if beta = 0 then wr C (mmIx col ldc i j) 0
        else do
          let c ← rd C (mmIx col ldc i j)
          wr C (mmIx col ldc i j) (beta * c)) = wr C ((denseOff col ldc i j : Nat) : Int) (beta * v) := by
    intro i j C v hv
    rw [mmIx_eq]
    by_cases hb : beta = 0
    · rw [if_pos hb, hb, zero_mul]
    · rw [if_neg hb, hv]
      rfl
  unfold scaleDense
  cases col
  · simp only [Bool.false_eq_true, if_false] at hld ⊢
    refine scale2 hld _ (fun a b ha hb => by have := hC a b ha hb; rwa [mmOff_eq] at this) ?_
      (Rep.of_list C 0)
    intro a b C v _ _ hv
    have := hcell a b C v (by rw [mmOff_eq]; exact hv)
    rw [this, mmOff_eq]
    rfl
  · simp only [if_true] at hld ⊢
    refine scale2 hld _ (fun a b ha hb => by have := hC b a hb ha; rwa [mmOff_eq] at this) ?_
      (Rep.of_list C 0)
    intro a b C v _ _ hv
    have := hcell b a C v (by rw [mmOff_eq]; exact hv)
    rw [this, mmOff_eq]
    rfl

/-! ### symmetric and Hermitian kernels -/

/-- something added along row `i` of C -/
def cellAt (col : Bool) (n ldc i : Nat) (F : Nat → R) (p : Nat) : R :=
  ∑ j ∈ range n, if (p : Int) = ((denseOff col ldc i j : Nat) : Int) then F j else 0

theorem mmOff_inj {col : Bool} {m i j i' j' : Nat} (hld : (if col then m else n) ≤ ldc)
    (hi : i < m) (hj : j < n) (hi' : i' < m) (hj' : j' < n)
    (h : denseOff col ldc i j = denseOff col ldc i' j') : i = i' ∧ j = j' := by
  rw [mmOff_eq, mmOff_eq] at h
  cases col
  · simp only [Bool.false_eq_true, if_false] at h hld
    have h1 := major_minor (ld := ldc) (a := i) (b := j) (by omega)
    have h2 := major_minor (ld := ldc) (a := i') (b := j') (by omega)
    rw [h] at h1
    exact ⟨by rw [← h1.1, h2.1], by rw [← h1.2, h2.2]⟩
  · simp only [if_true] at h hld
    have h1 := major_minor (ld := ldc) (a := j) (b := i) (by omega)
    have h2 := major_minor (ld := ldc) (a := j') (b := i') (by omega)
    rw [h] at h1
    exact ⟨by rw [← h1.2, h2.2], by rw [← h1.1, h2.1]⟩

theorem cellAt_cell {col : Bool} {m i i0 j0 : Nat} (hld : (if col then m else n) ≤ ldc) (hi : i < m)
    (hi0 : i0 < m) (hj0 : j0 < n) (F : Nat → R) :
    cellAt col n ldc i F (denseOff col ldc i0 j0) = if i0 = i then F j0 else 0 := by
  unfold cellAt
  by_cases h : i0 = i
  · subst h
    rw [if_pos rfl, sum_eq_single j0]
    · rw [if_pos rfl]
    · intro j hj hne
      rw [if_neg]
      intro he
      have := mmOff_inj hld hi0 hj0 hi0 (mem_range.mp hj) (by exact_mod_cast he)
      exact hne this.2.symm
    · intro hn; exact absurd (mem_range.mpr hj0) hn
  · rw [if_neg h]
    apply sum_eq_zero
    intro j hj
    rw [if_neg]
    intro he
    exact h (mmOff_inj hld hi0 hj0 hi (mem_range.mp hj) (by exact_mod_cast he)).1

theorem cellAt_rest {col : Bool} {m i p : Nat} (hi : i < m)
    (hp : ∀ i j, i < m → j < n → p ≠ denseOff col ldc i j) (F : Nat → R) :
    cellAt col n ldc i F p = 0 := by
  apply sum_eq_zero
  intro j hj
  rw [if_neg]
  intro he
  exact hp i j hi (mem_range.mp hj) (by exact_mod_cast he)

variable {a : MmIn R} {col : Bool} {m len : Nat}

/-- the arguments of a symmetric kernel -/
structure SymArgs (a : MmIn R) (alpha : R) (A : Csr R) (cj : R → R) (B : List R) (n ldb ldc : Nat) : Prop where
  cj : a.cj = cj
  alpha : a.alpha = alpha
  m : a.m = A.m
  n : a.n = n
  base : a.base = A.base
  ptr : a.ptr = A.ptr
  ind : a.ind = A.ind
  val : a.val = A.val
  B : a.B = B
  ldb : a.ldb = ldb
  ldc : a.ldc = ldc

/-- row `c` of B, scaled -/
def bRow (col : Bool) (alpha : R) (B : List R) (ldb c : Nat) (v : R) (j : Nat) : R :=
  v * B.getD (denseOff col ldb c j) 0 * alpha

theorem mmSymDiag_ok {cj : R → R} (ha : SymArgs a alpha A cj B n ldb ldc) {i c : Nat} (v : R)
    (hB : ∀ j, j < n → denseOff col ldb c j < B.length)
    (hC : ∀ j, j < n → denseOff col ldc i j < len) :
    Adds len (mmSymDiag col a i c v) (cellAt col n ldc i (bRow col alpha B ldb c v)) := by
  unfold mmSymDiag
  rw [ha.n]
  refine adds_forC (D := fun j p => if (p : Int) = ((denseOff col ldc i j : Nat) : Int) then
    bRow col alpha B ldb c v j else 0) ?_
  intro j hj
  refine (adds_addAt (len := len) (i := ((denseOff col ldc i j : Nat) : Int)) (by omega)
    (by exact_mod_cast hC j hj) (bRow col alpha B ldb c v j)).congr (fun C => ?_) (fun _ _ => rfl)
  rw [ha.ldb, ha.ldc, mmIx_eq, mmIx_eq, ha.B, (Rep.of_list B 0).rd_nat (hB j hj), ha.alpha]
  rfl

/-- inside the stored triangle -/
def inTri (lower : Bool) (i c : Nat) : Bool := if lower then decide (c < i) else decide (i < c)

theorem mmSymOff_ok {cj hc : R → R} (ha : SymArgs a alpha A cj B n ldb ldc) {i c : Nat} (v : R)
    (lower : Bool)
    (hB : ∀ j, j < n → denseOff col ldb c j < B.length)
    (hB' : ∀ j, j < n → denseOff col ldb i j < B.length)
    (hC : ∀ j, j < n → denseOff col ldc i j < len) (hC' : ∀ j, j < n → denseOff col ldc c j < len) :
    Adds len (mmSymOff col hc lower a i c v) (fun p => if inTri lower i c then
      cellAt col n ldc i (bRow col alpha B ldb c v) p
        + cellAt col n ldc c (bRow col alpha B ldb i (hc v)) p else 0) := by
  unfold mmSymOff
  rw [ha.n]
  have hcond : (if lower then (i : Int) > c else (i : Int) < c) ↔ inTri lower i c = true := by
    unfold inTri
    cases lower <;> simp
  by_cases ht : inTri lower i c = true
  · have h := adds_forC (len := len) (n := n) (body := fun j C => do
        let b ← rd a.B (mmIx col a.ldb c j)
        let C ← addAt C (mmIx col a.ldc i j) (v * b * a.alpha)
        let b' ← rd a.B (mmIx col a.ldb i j)
        addAt C (mmIx col a.ldc c j) (hc v * b' * a.alpha))
      (D := fun j p => (if (p : Int) = ((denseOff col ldc i j : Nat) : Int) then
        bRow col alpha B ldb c v j else 0) + (if (p : Int) = ((denseOff col ldc c j : Nat) : Int) then
        bRow col alpha B ldb i (hc v) j else 0)) (by
        intro j hj
        refine ((adds_addAt (len := len) (i := ((denseOff col ldc i j : Nat) : Int)) (by omega)
          (by exact_mod_cast hC j hj) (bRow col alpha B ldb c v j)).comp
          (adds_addAt (len := len) (i := ((denseOff col ldc c j : Nat) : Int)) (by omega)
          (by exact_mod_cast hC' j hj) (bRow col alpha B ldb i (hc v) j))).congr
          (fun C => ?_) (fun _ _ => rfl)
        rw [ha.ldb, ha.ldc, mmIx_eq, mmIx_eq, mmIx_eq, mmIx_eq, ha.B, (Rep.of_list B 0).rd_nat (hB j hj),
          (Rep.of_list B 0).rd_nat (hB' j hj), ha.alpha]
        rfl)
    refine h.congr (fun C => ?_) (fun p _ => ?_)
    · apply forC_congr
      intro j C _ _
      rw [if_pos (hcond.2 ht)]
    · rw [if_pos ht]
      unfold cellAt
      rw [sum_add_distrib]
  · have h := adds_forC (len := len) (n := n) (body := fun _ C => some C) (D := fun _ _ => (0 : R))
      (fun j _ => adds_id len)
    refine h.congr (fun C => ?_) (fun p _ => ?_)
    · apply forC_congr
      intro j C _ _
      rw [if_neg (fun h => ht (hcond.1 h))]
    · rw [if_neg ht]; simp

/-- what one stored entry of row `i` adds -/
def symEnt (col : Bool) (cj hc : R → R) (lower : Bool) (diag : Nat) (alpha : R) (B : List R)
    (n ldb ldc i : Nat) (e : Int × R) (p : Nat) : R :=
  if (i : Int) = e.1 ∧ diag = 0 then cellAt col n ldc i (bRow col alpha B ldb e.1.toNat (cj e.2)) p
  else if inTri lower i e.1.toNat then
      cellAt col n ldc i (bRow col alpha B ldb e.1.toNat (cj e.2)) p
        + cellAt col n ldc e.1.toNat (bRow col alpha B ldb i (hc (cj e.2))) p
    else 0

theorem mmSym_adds {cj hc : R → R} {lower : Bool} {diag : Nat} (hA : A.WF) (hsq : A.n = A.m)
    (ha : SymArgs a alpha A cj B n ldb ldc)
    (hB : ∀ l j, l < A.n → j < n → denseOff col ldb l j < B.length)
    (hC : ∀ i j, i < A.m → j < n → denseOff col ldc i j < len) :
    Adds len (mmSym col hc lower diag a) (fun p => ∑ i ∈ range A.m,
      ((if diag = 1 then cellAt col n ldc i (bRow col alpha B ldb i 1) p else 0)
        + ((A.row i).map fun e => symEnt col cj hc lower diag alpha B n ldb ldc i e p).sum)) := by
  unfold mmSym
  rw [ha.m]
  refine adds_forC (D := fun i p => ((if diag = 1 then cellAt col n ldc i (bRow col alpha B ldb i 1) p else 0)
        + ((A.row i).map fun e => symEnt col cj hc lower diag alpha B n ldb ldc i e p).sum)) ?_
  intro i hi
  have hp1 := hA.rd_ptr (i := i) (by omega)
  have hp2 := hA.rd_ptr (i := i + 1) (by omega)
  rw [show ((i + 1 : Nat) : Int) = (i : Int) + 1 by omega] at hp2
  have h1 : Adds len (fun C => if diag = 1 then mmSymDiag col a i i 1 C else some C)
      (fun p => if diag = 1 then cellAt col n ldc i (bRow col alpha B ldb i 1) p else 0) := by
    by_cases hd : diag = 1
    · refine (mmSymDiag_ok ha 1 (fun j hj => hB i j (by omega) hj) (fun j hj => hC i j hi hj)).congr
        (fun C => by rw [if_pos hd]) (fun p _ => by rw [if_pos hd])
    · exact (adds_id len).congr (fun C => by rw [if_neg hd]) (fun p _ => by rw [if_neg hd])
  have h2 : Adds len ((A.row i).foldlM (fun C e => if (i : Int) = e.1 ∧ diag = 0 then
        mmSymDiag col a i e.1 (cj e.2) C else mmSymOff col hc lower a i e.1 (cj e.2) C))
      (fun p => ((A.row i).map fun e => symEnt col cj hc lower diag alpha B n ldb ldc i e p).sum) := by
    refine adds_foldlM ?_
    intro e he
    have hr := Csr.row_range hA he
    obtain ⟨c, hc'⟩ : ∃ c : Nat, e.1 = (c : Int) := ⟨e.1.toNat, by omega⟩
    have hc2 : e.1.toNat = c := by omega
    by_cases hd : (i : Int) = e.1 ∧ diag = 0
    · refine (mmSymDiag_ok (c := c) ha (cj e.2) (fun j hj => hB c j (by omega) hj)
        (fun j hj => hC i j hi hj)).congr (fun C => by rw [if_pos hd, hc']) (fun p _ => ?_)
      unfold symEnt
      rw [if_pos hd, hc2]
    · refine (mmSymOff_ok (c := c) (hc := hc) ha (cj e.2) lower (fun j hj => hB c j (by omega) hj)
        (fun j hj => hB i j (by omega) hj)
        (fun j hj => hC i j hi hj) (fun j hj => hC c j (by omega) hj)).congr
        (fun C => by rw [if_neg hd, hc']) (fun p _ => ?_)
      unfold symEnt
      rw [if_neg hd, hc2]
  refine (h1.comp h2).congr (fun C => ?_) (fun _ _ => rfl)
  unfold mmSymRow
  rw [ha.ptr, ha.base, hp1, hp2]
  simp only [Option.bind_eq_bind, Option.bind_some]
  have hrow : ∀ C, forC (A.p i - A.base) (A.p (i + 1) - A.base)
      (fun k C => mmSymEnt col hc lower diag a i k C) C
      = (A.row i).foldlM (fun C e => if (i : Int) = e.1 ∧ diag = 0 then
        mmSymDiag col a i e.1 (cj e.2) C else mmSymOff col hc lower a i e.1 (cj e.2) C) C := by
    intro C
    refine Csr.forC_row' hA hi (G := fun c v C => if (i : Int) = c ∧ diag = 0 then
        mmSymDiag col a i c (cj v) C else mmSymOff col hc lower a i c (cj v) C) ?_ C
    intro j c v s g1 g2 _
    unfold mmSymEnt
    rw [ha.val, ha.ind, g1, g2]
    simp only [Option.bind_eq_bind, Option.bind_some]
    rw [ha.cj, ha.base, show c + A.base - A.base = c by ring]
  simp only [hrow]
  by_cases hd : diag = 1
  · rw [if_pos hd, if_pos hd]
  · rw [if_neg hd, if_neg hd]; rfl

/-- the entries of the stored triangle -/
def triRow (lower : Bool) (A : Csr R) (i : Nat) : List (Int × R) :=
  (A.row i).filter fun e => inTri lower i e.1.toNat

omit [DecidableEq R] in
theorem mmColSum_cons (e : Int × R) (L : List (Int × R)) (j : Nat) :
    colSum (e :: L) j = (if e.1 = (j : Int) then e.2 else 0) + colSum L j := by
  unfold colSum
  rw [List.filter_cons]
  by_cases h : e.1 = (j : Int)
  · rw [if_pos h, if_pos (by simpa using h)]
    simp
  · rw [if_neg h, if_neg (by simpa using h), zero_add]

theorem colSum_triRow (hA : A.WF) (lower : Bool) (i j : Nat) :
    colSum (triRow lower A i) j = if inTri lower i j then A.mat i j else 0 := by
  rw [mat_eq_colSum]
  unfold triRow
  have hfp : ∀ (e : Int × R) (L : List (Int × R)), inTri lower i e.1.toNat = true →
      (e :: L).filter (fun e => inTri lower i e.1.toNat) = e :: L.filter (fun e => inTri lower i e.1.toNat) :=
    fun e L h => List.filter_cons_of_pos h
  have hfn : ∀ (e : Int × R) (L : List (Int × R)), ¬ inTri lower i e.1.toNat = true →
      (e :: L).filter (fun e => inTri lower i e.1.toNat) = L.filter (fun e => inTri lower i e.1.toNat) :=
    fun e L h => List.filter_cons_of_neg h
  have : ∀ L : List (Int × R), (∀ e ∈ L, 0 ≤ e.1) →
      colSum (L.filter fun e => inTri lower i e.1.toNat) j = if inTri lower i j then colSum L j else 0 := by
    intro L hL
    induction L with
    | nil => simp [colSum]
    | cons e L ih =>
      have h0 := hL e (by simp)
      have ih := ih (fun x hx => hL x (by simp [hx]))
      rw [mmColSum_cons]
      by_cases ht : inTri lower i e.1.toNat = true
      · rw [hfp e L ht, mmColSum_cons, ih]
        by_cases hj : e.1 = (j : Int)
        · rw [hj] at ht
          simp only [Int.toNat_natCast] at ht
          rw [if_pos ht, if_pos ht]
        · rw [if_neg hj, zero_add, zero_add]
      · rw [hfn e L ht, ih]
        by_cases hj : e.1 = (j : Int)
        · rw [hj] at ht
          simp only [Int.toNat_natCast] at ht
          rw [if_neg ht, if_neg ht]
        · rw [if_neg hj, zero_add]
  exact this (A.row i) (fun e he => (Csr.row_range hA he).1)

/-- the diagonal used for a diagonal type -/
def dVal (cj : R → R) (diag : Nat) (A : Csr R) (i : Nat) : R :=
  if diag = 0 then cj (A.mat i i) else if diag = 1 then 1 else 0

theorem symRow_sum (cj hc : R →+ R) {lower : Bool} {diag : Nat} (hA : A.WF)
    (hsq : A.n = A.m) (hld : (if col then A.m else n) ≤ ldc) {i i0 j0 : Nat} (hi : i < A.m)
    (hi0 : i0 < A.m) (hj0 : j0 < n) :
    ((if diag = 1 then cellAt col n ldc i (bRow col alpha B ldb i 1) (denseOff col ldc i0 j0) else 0)
      + ((A.row i).map fun e => symEnt col cj hc lower diag alpha B n ldb ldc i e
          (denseOff col ldc i0 j0)).sum)
      = symRow cj (hc.comp cj) alpha ((List.range A.m).map fun l => B.getD (denseOff col ldb l j0) 0)
          (triRow lower A i) (dVal cj diag A i) i i0 := by
  have hx : ∀ l, l < A.m → ((List.range A.m).map fun l => B.getD (denseOff col ldb l j0) 0).getD l 0
      = B.getD (denseOff col ldb l j0) 0 := by
    intro l hl
    rw [List.getD_eq_getElem?_getD]
    simp [hl]
  generalize hX : ((List.range A.m).map fun l => B.getD (denseOff col ldb l j0) 0) = X at hx
  have hrr : ∀ e ∈ A.row i, 0 ≤ e.1 ∧ e.1.toNat < A.m := fun e he => by
    have := Csr.row_range hA he; omega
  have hfp : ∀ (e : Int × R) (L : List (Int × R)), inTri lower i e.1.toNat = true →
      (e :: L).filter (fun e => inTri lower i e.1.toNat) = e :: L.filter (fun e => inTri lower i e.1.toNat) :=
    fun e L h => List.filter_cons_of_pos h
  have hfn : ∀ (e : Int × R) (L : List (Int × R)), ¬ inTri lower i e.1.toNat = true →
      (e :: L).filter (fun e => inTri lower i e.1.toNat) = L.filter (fun e => inTri lower i e.1.toNat) :=
    fun e L h => List.filter_cons_of_neg h
  have key : ∀ L : List (Int × R), (∀ e ∈ L, 0 ≤ e.1 ∧ e.1.toNat < A.m) →
      (L.map fun e => symEnt col cj hc lower diag alpha B n ldb ldc i e (denseOff col ldc i0 j0)).sum
      = (if i0 = i then alpha * (((L.filter fun e => inTri lower i e.1.toNat).map fun e =>
            cj e.2 * X.getD e.1.toNat 0).sum
          + (if diag = 0 then cj (colSum L i) else 0) * X.getD i 0) else 0)
        + scat (fun v => (hc.comp cj) v * (alpha * X.getD i 0)) (L.filter fun e => inTri lower i e.1.toNat) i0 := by
    intro L hL
    induction L with
    | nil => simp [scat, colSum]
    | cons e L ih =>
      have hr := hL e (by simp)
      rw [List.map_cons, List.sum_cons, ih (fun x hx => hL x (by simp [hx]))]
      rw [mmColSum_cons]
      unfold symEnt
      by_cases hd : (i : Int) = e.1 ∧ diag = 0
      · have hnt : ¬ inTri lower i e.1.toNat = true := by
          unfold inTri; cases lower <;> simp <;> omega
        rw [if_pos hd, hfn e L hnt, if_pos hd.1.symm, if_pos hd.2, if_pos hd.2,
          cellAt_cell hld hi hi0 hj0]
        by_cases h0 : i0 = i
        · simp only [if_pos h0, map_add, bRow]
          rw [show e.1.toNat = i by omega, hx i hi]
          ring
        · simp only [if_neg h0]
          ring
      · rw [if_neg hd]
        by_cases ht : inTri lower i e.1.toNat = true
        · have hne : ¬ e.1 = (i : Int) := by
            intro h
            unfold inTri at ht
            cases lower <;> simp at ht <;> omega
          rw [if_pos ht, hfp e L ht, if_neg hne, zero_add, cellAt_cell hld hi hi0 hj0,
            cellAt_cell hld hr.2 hi0 hj0]
          have hs : scat (fun v => (hc.comp cj) v * (alpha * X.getD i 0))
              (e :: (L.filter fun e => inTri lower i e.1.toNat)) i0
              = (if (i0 : Int) = e.1 then (hc.comp cj) e.2 * (alpha * X.getD i 0) else 0)
                + scat (fun v => (hc.comp cj) v * (alpha * X.getD i 0))
                  (L.filter fun e => inTri lower i e.1.toNat) i0 := by
            simp [scat]
          rw [hs]
          have hc0 : (i0 = e.1.toNat) ↔ (i0 : Int) = e.1 := by omega
          simp only [List.map_cons, List.sum_cons, bRow, hx i hi, hx _ hr.2, hc0]
          by_cases h0 : i0 = i
          · simp only [if_pos h0]
            by_cases h1 : (i0 : Int) = e.1
            · simp only [if_pos h1, AddMonoidHom.coe_comp, Function.comp]
              ring
            · simp only [if_neg h1]
              ring
          · simp only [if_neg h0]
            by_cases h1 : (i0 : Int) = e.1
            · simp only [if_pos h1, AddMonoidHom.coe_comp, Function.comp]
              ring
            · simp only [if_neg h1]
              ring
        · rw [if_neg ht, hfn e L ht, zero_add]
          congr 1
          by_cases h0 : i0 = i
          · rw [if_pos h0, if_pos h0]
            by_cases hdz : diag = 0
            · have : ¬ e.1 = (i : Int) := fun h => hd ⟨h.symm, hdz⟩
              rw [if_neg this, zero_add]
            · rw [if_neg hdz, if_neg hdz]
          · rw [if_neg h0, if_neg h0]
  rw [key (A.row i) hrr, ← mat_eq_colSum]
  unfold symRow triRow dVal
  rw [cellAt_cell hld hi hi0 hj0]
  by_cases h1 : diag = 1
  · subst h1
    simp only [if_true, one_ne_zero, if_false, zero_mul, add_zero]
    by_cases h0 : i0 = i
    · simp only [if_pos h0, bRow, hx i hi]
      ring
    · simp only [if_neg h0]
      ring
  · rw [if_neg h1, zero_add, if_neg h1]

/-- the matrix a symmetric kernel multiplies with -/
def symMat (cj hc : R → R) (lower : Bool) (diag : Nat) (A : Csr R) : Mat R := fun i j =>
  (if i = j then dVal cj diag A i else 0) + cj (if inTri lower i j then A.mat i j else 0)
    + hc (cj (if inTri lower j i then A.mat j i else 0))

/-- scaling and symmetric kernel -/
theorem mmSym_ok (cj hc : R →+ R) {lower : Bool} {diag : Nat} (hA : A.WF) (hsq : A.n = A.m)
    (ha : SymArgs a alpha A cj B n ldb ldc) (hld : (if col then A.m else n) ≤ ldc)
    (hB : ∀ l j, l < A.n → j < n → denseOff col ldb l j < B.length) {C : List R}
    (hC : ∀ i j, i < A.m → j < n → denseOff col ldc i j < C.length) :
    ∃ C1 C2, scaleDense col A.m n ldc beta C = some C1 ∧
      mmSym col hc lower diag a C1 = some C2 ∧
      IsMm col alpha beta (symMat cj hc lower diag A) A.m A.n n ldb ldc B C C2 := by
  obtain ⟨C1, e1, r1⟩ := scaleDense_ok (beta := beta) hld hC
  obtain ⟨C2, e2, r2⟩ := mmSym_adds (hc := hc) (lower := lower) (diag := diag) hA hsq ha hB hC C1 _ r1
  refine ⟨C1, C2, e1, e2, r2.1, ?_, ?_⟩
  · intro i0 j0 hi0 hj0
    rw [r2.2 _ (hC i0 j0 hi0 hj0)]
    congr 1
    have hdone : doneF ldc (fun a b => a < (if col then n else A.m) ∧ b < (if col then A.m else n))
        (fun _ _ v => beta * v) (fun p => C.getD p 0) (denseOff col ldc i0 j0)
        = beta * C.getD (denseOff col ldc i0 j0) 0 := by
      rw [mmOff_eq]
      refine doneF_in ?_ ?_ _ _
      · cases col <;> simp at hld ⊢ <;> omega
      · cases col <;> simp [hi0, hj0]
    dsimp only
    rw [hdone, add_comm]
    congr 1
    rw [sum_congr rfl (fun i hi => symRow_sum (B := B) (ldb := ldb) (alpha := alpha) (lower := lower) (diag := diag) cj hc hA hsq
      hld (mem_range.mp hi) hi0 hj0)]
    rw [symm_total cj (hc.comp cj) alpha _ A.m (triRow lower A) (dVal cj diag A) (by
      intro i hi e he
      have := Csr.row_range hA (List.mem_filter.mp he).1
      omega) hi0]
    congr 1
    unfold matVec
    rw [hsq]
    apply sum_congr rfl
    intro l hl
    have hl := mem_range.mp hl
    congr 1
    · unfold symMat
      dsimp only
      rw [colSum_triRow hA, colSum_triRow hA]
      rfl
    · rw [List.getD_eq_getElem?_getD]
      simp [hl]
  · intro p hp
    by_cases hl : p < C.length
    · rw [r2.2 p hl]
      have h0 : (∑ i ∈ range A.m,
        ((if diag = 1 then cellAt col n ldc i (bRow col alpha B ldb i 1) p else 0)
          + ((A.row i).map fun e => symEnt col cj hc lower diag alpha B n ldb ldc i e p).sum)) = 0 := by
        apply sum_eq_zero
        intro i hi
        have hi := mem_range.mp hi
        have h1 : ((A.row i).map fun e => symEnt col cj hc lower diag alpha B n ldb ldc i e p).sum = 0 := by
          apply List.sum_eq_zero
          intro v hv
          obtain ⟨e, he, rfl⟩ := List.mem_map.mp hv
          have hr := Csr.row_range hA he
          unfold symEnt
          rw [cellAt_rest hi hp, cellAt_rest (i := e.1.toNat) (m := A.m) (by omega) hp]
          simp
        rw [h1, cellAt_rest hi hp]
        simp
      dsimp only
      rw [h0, add_zero]
      unfold doneF
      rw [if_neg]
      · simp [hl]
      · rintro ⟨h1, h2⟩
        have hd := Nat.div_add_mod p ldc
        refine hp (if col then p % ldc else p / ldc) (if col then p / ldc else p % ldc) ?_ ?_ ?_
        · cases col <;> simp at h1 h2 ⊢ <;> omega
        · cases col <;> simp at h1 h2 ⊢ <;> omega
        · rw [mmOff_eq, Nat.mul_comm] at *
          cases col <;> simp <;> rw [Nat.mul_comm] <;> omega
    · rw [List.getElem?_eq_none (by rw [r2.1]; omega), List.getElem?_eq_none (by omega)]

end Verif
