/-
Row-major kernels of the sparse times dense product.
-/
import Verif.Proofs.Csrmm
import Verif.Proofs.DiaMv

namespace Verif
open Model Finset

variable {R : Type} [CommSemiring R] [DecidableEq R]
variable {cj : R → R} {alpha beta : R} {A : Csr R} {B : List R} {n ldb ldc : Nat}

/-- the new content of the cell of row `i`, column `j` -/
def cellRow (cj : R → R) (alpha beta : R) (A : Csr R) (B : List R) (ldb : Nat) (i j : Nat) (v : R) : R :=
  alpha * mmDot false cj A B ldb i j + beta * v

theorem mmScaleRow_ok {a : MmIn R} (hn : a.n = (n : Int)) (hb : a.beta = beta) {s len : Nat}
    (hlen : s + n ≤ len) {C : List R}
    {f : Nat → R} (hC : Rep C len f) :
    ∃ C', mmScaleRow a (s : Int) C = some C' ∧
      Rep C' len (fun p => if s ≤ p ∧ p < s + n then f p * beta else f p) := by
  unfold mmScaleRow
  rw [hn, hb]
  refine forC_inv_nat (n := n) (s := C)
    (P := fun k C => Rep C len (fun p => if s ≤ p ∧ p < s + k then f p * beta else f p))
    (hC.congr (fun k _ => by rw [if_neg (by omega)])) ?_
  intro k C' hk hC'
  have e : (s : Int) + k = ((s + k : Nat) : Int) := by push_cast; rfl
  rw [e, hC'.rd_nat (by omega)]
  simp only [Option.bind_eq_bind, Option.bind_some]
  rw [if_neg (by omega)]
  obtain ⟨C2, e2, r2⟩ := hC'.wr_nat (i := s + k) (f (s + k) * beta) (by omega)
  refine ⟨C2, e2, r2.congr (fun p _ => ?_)⟩
  by_cases hp : p = s + k
  · subst hp
    rw [Function.update_self, if_pos (by omega)]
  · rw [Function.update_of_ne hp]
    by_cases hw : s ≤ p ∧ p < s + k
    · rw [if_pos hw, if_pos (by omega)]
    · rw [if_neg hw, if_neg (by omega)]

/-- what one stored entry `(c, v)` contributes to position `p` of the row starting at `s` -/
def rowTerm (alpha : R) (B : List R) (ldb s : Nat) (e : Nat × R) (p : Nat) : R :=
  e.2 * B.getD (e.1 * ldb + (p - s)) 0 * alpha

theorem mmAxpyRow_ok {s len c : Nat} {v : R} {pos : Int} (hlen : s + n ≤ len)
    (hi : rd A.ind pos = some ((c : Int) + A.base)) (hv : rd A.val pos = some v)
    (hB : ∀ j, j < n → c * ldb + j < B.length) :
    Adds len (mmAxpyRow (mmOf cj alpha beta A B n ldb ldc) (s : Int) pos)
      (fun p => if s ≤ p ∧ p < s + n then rowTerm alpha B ldb s (c, cj v) p else 0) := by
  have h := adds_window (len := len) (a := (s : Int)) (num := (n : Int)) (by omega) (by omega)
    (one := fun k C => do
      let b ← rd B ((((c : Int) + A.base) * ldb) - A.base * ldb + k)
      addAt C ((s : Int) + k) (cj v * b * alpha)) (rowTerm alpha B ldb s (c, cj v)) (by
      intro j y f h0 h1 hy
      obtain ⟨j, rfl⟩ : ∃ k : Nat, j = (k : Int) := ⟨j.toNat, by omega⟩
      have e : ((c : Int) + A.base) * ldb - A.base * ldb + (j : Int) = ((c * ldb + j : Nat) : Int) := by
        push_cast; ring
      rw [e, (Rep.of_list B 0).rd_nat (hB j (by omega))]
      simp only [Option.bind_eq_bind, Option.bind_some]
      refine addAt_win (by omega) (by omega) ?_ hy
      unfold rowTerm
      simp only
      congr 4
      omega)
  refine h.congr (fun C => ?_) (fun p _ => ?_)
  · unfold mmAxpyRow
    simp only [mmOf]
    rw [hi, hv]
    rfl
  · by_cases hp : s ≤ p ∧ p < s + n
    · rw [if_pos hp, if_pos (by omega)]
    · rw [if_neg hp, if_neg (by omega)]

/-- a routine that handles one row -/
def RowOk (cj : R → R) (alpha beta : R) (A : Csr R) (B : List R) (n ldb ldc len i : Nat)
    (body : List R → Option (List R)) : Prop :=
  ∀ C f, Rep C len f → ∃ C', body C = some C' ∧
    Rep C' len (fun p => if i * ldc ≤ p ∧ p < i * ldc + n then
      cellRow cj alpha beta A B ldb i (p - i * ldc) (f p) else f p)

theorem rowTerm_sum (i p : Nat) :
    ((A.row i).map fun e => rowTerm alpha B ldb (i * ldc) (e.1.toNat, cj e.2) p).sum
      = alpha * mmDot false cj A B ldb i (p - i * ldc) := by
  unfold mmDot rowTerm
  simp only [denseOff, Bool.false_eq_true, if_false]
  rw [← List.sum_map_mul_left]
  congr 1
  apply List.map_congr_left
  intro e _
  ring

/-- scaling followed by additions -/
theorem rowOk_of_adds {len i : Nat} {body : List R → Option (List R)} {add : List R → Option (List R)}
    (hlen : i * ldc + n ≤ len)
    (hb : ∀ C, body C = (mmScaleRow (mmOf cj alpha beta A B n ldb ldc) ((i * ldc : Nat) : Int) C).bind add)
    (h : Adds len add (fun p => if i * ldc ≤ p ∧ p < i * ldc + n then
      alpha * mmDot false cj A B ldb i (p - i * ldc) else 0)) :
    RowOk cj alpha beta A B n ldb ldc len i body := by
  intro C f hC
  obtain ⟨C1, e1, r1⟩ := mmScaleRow_ok (a := mmOf cj alpha beta A B n ldb ldc) (n := n) (beta := beta)
    rfl rfl hlen hC
  obtain ⟨C2, e2, r2⟩ := h C1 _ r1
  refine ⟨C2, by rw [hb, e1]; exact e2, r2.congr (fun p _ => ?_)⟩
  by_cases hp : i * ldc ≤ p ∧ p < i * ldc + n
  · simp only [if_pos hp, cellRow]
    ring
  · simp only [if_neg hp, add_zero]

theorem mmRowOne_ok (hA : A.WF) {len i : Nat} (hi : i < A.m)
    (hB : ∀ l j, l < A.n → j < n → denseOff false ldb l j < B.length) (hlen : i * ldc + n ≤ len) :
    RowOk cj alpha beta A B n ldb ldc len i
      (mmRowOne (mmOf cj alpha beta A B n ldb ldc) i) := by
  have hp1 := hA.rd_ptr (i := i) (by omega)
  have hp2 := hA.rd_ptr (i := i + 1) (by omega)
  rw [show ((i + 1 : Nat) : Int) = (i : Int) + 1 by omega] at hp2
  refine rowOk_of_adds (add := fun C => forC (A.p i) (A.p (i + 1)) (fun j C =>
      mmAxpyRow (mmOf cj alpha beta A B n ldb ldc) ((i : Int) * ldc) (j - A.base) C) C) hlen ?_ ?_
  · intro C
    unfold mmRowOne
    simp only [mmOf]
    rw [hp1, hp2]
    simp only [Option.bind_eq_bind, Option.bind_some]
    push_cast
    rfl
  · have h : Adds len ((A.row i).foldlM (fun C (e : Int × R) => forC 0 (n : Int) (fun k C => do
        let b ← rd B ((e.1 + A.base) * ldb - A.base * ldb + k)
        addAt C ((i : Int) * ldc + k) (cj e.2 * b * alpha)) C))
        (fun p => ((A.row i).map fun e => if i * ldc ≤ p ∧ p < i * ldc + n then
          rowTerm alpha B ldb (i * ldc) (e.1.toNat, cj e.2) p else 0).sum) := by
      refine adds_foldlM (D := fun (e : Int × R) p => if i * ldc ≤ p ∧ p < i * ldc + n then
          rowTerm alpha B ldb (i * ldc) (e.1.toNat, cj e.2) p else 0) ?_
      intro e he
      have hr := Csr.row_range hA he
      have hB' : ∀ j, j < n → e.1.toNat * ldb + j < B.length := fun j hj => by
        have := hB e.1.toNat j (by omega) hj
        simpa [denseOff] using this
      have := mmAxpyRow_ok (cj := cj) (alpha := alpha) (beta := beta) (ldc := ldc) (n := n) (ldb := ldb) (len := len)
        (A := ⟨0, 0, A.base, [], [e.1 + A.base], [e.2]⟩) (B := B) (s := i * ldc) (c := e.1.toNat)
        (v := e.2) (pos := 0) hlen (by rw [Int.toNat_of_nonneg hr.1]; rfl) rfl hB'
      refine this.congr (fun C => ?_) (fun _ _ => rfl)
      unfold mmAxpyRow
      simp only [mmOf, Nat.cast_mul]
      rfl
    refine h.congr (fun C => ?_) (fun p _ => ?_)
    · have e1 := forC_shift A.base (A.p i - A.base) (A.p (i + 1) - A.base) (fun j C =>
        mmAxpyRow (mmOf cj alpha beta A B n ldb ldc) ((i : Int) * ldc) (j - A.base) C) C
      rw [show A.base + (A.p i - A.base) = A.p i by ring,
        show A.base + (A.p (i + 1) - A.base) = A.p (i + 1) by ring] at e1
      rw [← e1]
      refine Csr.forC_row' hA hi (G := fun c v C => forC 0 (n : Int) (fun k C => do
        let b ← rd B ((c + A.base) * ldb - A.base * ldb + k)
        addAt C ((i : Int) * ldc + k) (cj v * b * alpha)) C) ?_ C
      intro j c v s h1 h2 _
      rw [show A.base + j - A.base = j by ring]
      unfold mmAxpyRow
      simp only [mmOf]
      rw [h1, h2]
      rfl
    · by_cases hp : i * ldc ≤ p ∧ p < i * ldc + n
      · simp only [if_pos hp]
        exact (rowTerm_sum i p).symm
      · simp only [if_neg hp]
        simp

/-- a team of row routines -/
theorem rows_team {w : Nat} {tm : MmTeam} (hT : 0 < tm.T) (hov : (A.m : Int) * tm.T ≤ intMax w)
    (hord : tm.ord.Perm (List.range tm.T)) (hld : n ≤ ldc) (hn : 0 < n) {C : List R}
    (body : Int → List R → Option (List R))
    (hbody : ∀ i : Nat, i < A.m → RowOk cj alpha beta A B n ldb ldc C.length i (body i)) :
    ∃ C', inTeam w tm.ord tm.T A.m () (fun i s => do
        let C ← body i s.2
        some ((), C)) C = some C' ∧
      Rep C' C.length (doneF ldc (fun a b => a < A.m ∧ b < n)
        (cellRow cj alpha beta A B ldb) (fun p => C.getD p 0)) := by
  refine team_inv (w := w) (T := tm.T) (m := A.m) (order := tm.ord) (loc := ())
    (s := C) hT hov hord
    (P := fun S s => Rep s C.length (doneF ldc (fun a b => S a ∧ b < n)
        (cellRow cj alpha beta A B ldb) (fun p => C.getD p 0)))
    (Q := fun _ _ => True)
    ((Rep.of_list C 0).congr (fun k _ => by unfold doneF; rw [if_neg (by simp)]))
    (fun _ => trivial) ?_
  intro S i s _ hi hSi hs _
  obtain ⟨C', e, r⟩ := hbody i hi s _ hs
  refine ⟨(), C', by simp [e], r.congr (fun p hp => ?_), trivial⟩
  have hdm := Nat.div_add_mod p ldc
  have hwin : (i * ldc ≤ p ∧ p < i * ldc + n) ↔ (p / ldc = i ∧ p % ldc < n) := by
    constructor
    · rintro ⟨h1, h2⟩
      obtain ⟨b, rfl⟩ : ∃ b, p = i * ldc + b := ⟨p - i * ldc, by omega⟩
      have := major_minor (ld := ldc) (a := i) (b := b) (by omega)
      rw [this.1, this.2]
      omega
    · rintro ⟨rfl, h⟩
      rw [Nat.mul_comm] at hdm
      omega
  unfold doneF
  by_cases hw : i * ldc ≤ p ∧ p < i * ldc + n
  · have h2 := hwin.1 hw
    rw [if_pos hw, if_neg (by rintro ⟨h, _⟩; rw [h2.1] at h; exact hSi h),
      if_pos ⟨Or.inr h2.1, h2.2⟩, h2.1]
    congr 1
    rw [h2.1, Nat.mul_comm] at hdm
    omega
  · rw [if_neg hw]
    have : ¬ (p / ldc = i ∧ p % ldc < n) := fun h => hw (hwin.2 h)
    by_cases hS : S (p / ldc) ∧ p % ldc < n
    · rw [if_pos hS, if_pos ⟨Or.inl hS.1, hS.2⟩]
    · rw [if_neg hS, if_neg (by tauto)]

/-! ### groups of four entries -/

theorem zipFold (K : Nat) (F : Nat → R) (L : List (R × (Nat → R))) :
    (L.map fun ab => (ab.1, (List.range K).map ab.2)).foldl
      (fun c ab => List.zipWith (fun b c => ab.1 * b + c) ab.2 c) ((List.range K).map F)
      = (List.range K).map (fun l => F l + (L.map fun ab => ab.1 * ab.2 l).sum) := by
  induction L generalizing F with
  | nil => simp
  | cons a L ih =>
    simp only [List.map_cons, List.foldl_cons]
    rw [zip2_map, ih]
    apply List.map_congr_left
    intro l _
    simp only [List.sum_cons]
    ring

theorem mapM_map_some {α β : Type} {f : α → Option β} {g : α → β} (L : List α)
    (h : ∀ x ∈ L, f x = some (g x)) : L.mapM f = some (L.map g) := by
  induction L with
  | nil => rfl
  | cons a L ih =>
    rw [List.mapM_cons, h a (by simp), ih (fun x hx => h x (by simp [hx]))]
    rfl

/-- what a group of entries contributes -/
def grpD (alpha : R) (B : List R) (ldb s : Nat) (L : List (Nat × R)) (p : Nat) : R :=
  (L.map fun e => rowTerm alpha B ldb s e p).sum

variable {base : Int}

theorem mmRowVec_ok {K : Nat} {a : MmIn R} (ha : a.alpha = alpha ∧ a.B = B ∧ a.ldb = (ldb : Int))
    {s len blk j : Nat} (es : List (Nat × R))
    (hB : ∀ e ∈ es, ∀ j, j < n → e.1 * ldb + j < B.length) (hj : j + K ≤ n) (hlen : s + n ≤ len)
    {C : List R} {f : Nat → R} (hC : Rep C len f) :
    ∃ C', mmRowVec K a s blk (es.map fun e => ((e.1 : Int) + a.base, e.2)) j C = some C' ∧
      Rep C' len (fun p => if s + j ≤ p ∧ p < s + j + K then
        f p + grpD alpha B ldb s (es.take blk) p else f p) := by
  obtain ⟨h1, h2, h3⟩ := ha
  by_cases hK : K = 0
  · subst hK
    refine ⟨C, ?_, hC.congr (fun p _ => by rw [if_neg (by omega)])⟩
    unfold mmRowVec
    simp only [vload, List.range_zero, List.mapM_nil]
    have : (es.map fun e => ((e.1 : Int) + a.base, e.2)).mapM (fun e => (do
        let b ← (pure [] : Option (List R))
        some (a.alpha * e.2, b))) = some ((es.map fun e => ((e.1 : Int) + a.base, e.2)).map
          fun e => (a.alpha * e.2, [])) := mapM_map_some _ (fun x _ => rfl)
    simp only [Option.bind_eq_bind] at this ⊢
    rw [this]
    have hf : ∀ L : List (R × List R), L.foldl (fun c ab => List.zipWith (fun b c => ab.1 * b + c) ab.2 c)
        ([] : List R) = [] := by
      intro L; induction L with
      | nil => rfl
      | cons _ _ ih => simpa using ih
    simp only [Option.pure_def, Option.bind_some]
    rw [hf]
    rfl
  unfold mmRowVec
  rw [vload_rep hC (by omega) (by omega)]
  simp only [Option.bind_eq_bind, Option.bind_some]
  have hm : (es.map fun e => ((e.1 : Int) + a.base, e.2)).mapM (fun e =>
      (vload a.B (j + (e.1 * a.ldb - a.base * a.ldb)) K).bind fun b => some (a.alpha * e.2, b))
      = some ((es.map fun e => (alpha * e.2, fun l => B.getD (e.1 * ldb + j + l) 0)).map
        fun ab => (ab.1, (List.range K).map ab.2)) := by
    rw [List.mapM_map, mapM_map_some (g := fun e => (alpha * e.2, (List.range K).map
      fun l => B.getD (e.1 * ldb + j + l) 0)), List.map_map]
    · rfl
    · intro e he
      have hb := hB e he (j + K - 1) (by omega)
      have eo : (j : Int) + (((e.1 : Int) + a.base) * a.ldb - a.base * a.ldb)
          = ((e.1 * ldb + j : Nat) : Int) := by rw [h3]; push_cast; ring
      simp only [Function.comp]
      rw [eo, h2, vload_rep (Rep.of_list B 0) (by omega) (by omega), h1]
      simp only [Option.bind_some, Int.toNat_natCast]
  rw [hm]
  simp only [Option.bind_some]
  rw [← List.map_take, ← List.map_take, zipFold]
  obtain ⟨C', e, r⟩ := vstore_rep hC (p := (s : Int) + j) (K := K) (fun l => f (((s : Int) + j).toNat + l)
    + ((List.map (fun e => (alpha * e.2, fun l => B.getD (e.1 * ldb + j + l) 0)) (es.take blk)).map
        fun ab => ab.1 * ab.2 l).sum) (by omega) (by omega)
  refine ⟨C', e, r.congr (fun p _ => ?_)⟩
  by_cases hp : s + j ≤ p ∧ p < s + j + K
  · rw [if_pos hp, if_pos (by omega), show ((s : Int) + j).toNat = s + j by omega,
      show s + j + (p - (s + j)) = p by omega]
    congr 1
    rw [grpD, List.map_map]
    congr 1
    apply List.map_congr_left
    intro e _
    simp only [Function.comp, rowTerm]
    rw [show e.1 * ldb + j + (p - (s + j)) = e.1 * ldb + (p - s) by omega]
    ring
  · rw [if_neg hp, if_neg (by omega)]

theorem mmRowRem_ok {a : MmIn R} (ha : a.alpha = alpha ∧ a.B = B ∧ a.ldb = (ldb : Int))
    {s len blk j : Nat} (es : List (Nat × R))
    (hB : ∀ e ∈ es, ∀ j, j < n → e.1 * ldb + j < B.length) (hj : j < n) (hlen : s + n ≤ len)
    {C : List R} {f : Nat → R} (hC : Rep C len f) :
    ∃ C', mmRowRem a s blk (es.map fun e => ((e.1 : Int) + a.base, e.2)) j C = some C' ∧
      Rep C' len (fun p => if p = s + j then
        f p + grpD alpha B ldb s (es.take blk) p else f p) := by
  obtain ⟨h1, h2, h3⟩ := ha
  unfold mmRowRem
  rw [← List.map_take, foldlM_map']
  have hA := adds_foldlM (len := len) (L := es.take blk)
    (body := fun C e => do
      let b ← rd a.B ((((e.1 : Int) + a.base) * a.ldb - a.base * a.ldb) + j)
      addAt C ((s : Int) + j) (e.2 * b * a.alpha))
    (D := fun e p => if (p : Int) = (s : Int) + j then rowTerm alpha B ldb s e p else 0) (by
      intro e he C f hC
      have hb := hB e (List.mem_of_mem_take he) j hj
      have eo : (((e.1 : Int) + a.base) * a.ldb - a.base * a.ldb) + (j : Int)
          = ((e.1 * ldb + j : Nat) : Int) := by rw [h3]; push_cast; ring
      simp only
      rw [eo, h2, (Rep.of_list B 0).rd_nat hb, h1]
      simp only [Option.bind_eq_bind, Option.bind_some]
      obtain ⟨y, e1, r1⟩ := adds_addAt (len := len) (i := (s : Int) + j) (by omega) (by omega)
        (e.2 * B.getD (e.1 * ldb + j) 0 * alpha) C f hC
      refine ⟨y, e1, r1.congr (fun p _ => ?_)⟩
      by_cases hp : (p : Int) = (s : Int) + j
      · simp only [if_pos hp, rowTerm]
        rw [show p - s = j by omega]
      · simp only [if_neg hp])
  obtain ⟨C', e, r⟩ := hA C f hC
  refine ⟨C', e, r.congr (fun p _ => ?_)⟩
  by_cases hp : p = s + j
  · have hp' : (p : Int) = (s : Int) + j := by omega
    simp only [if_pos hp, if_pos hp']
    rfl
  · have hp' : ¬ (p : Int) = (s : Int) + j := by omega
    simp only [if_neg hp, if_neg hp']
    simp

/-- the number of entries of a group -/
theorem mmBlkEnts_eq {lo : Int} {N k : Nat} (hk : k < N) :
    mmBlkEnts (lo + N) (lo + k) = min 4 (N - k) := by
  unfold mmBlkEnts
  split
  · omega
  · split
    · omega
    · split <;> omega

theorem mmRowBlk_ok {K : Nat} (hK : 0 < K) {a : MmIn R}
    (ha : a.alpha = alpha ∧ a.B = B ∧ a.ldb = (ldb : Int)) (han : a.n = (n : Int))
    {s len : Nat} {lo : Int} {N k : Nat} (hk : k < N) (E : Nat → Nat × R)
    (hE : ∀ t, t < N → mmEnt a (lo + t) = some ((((E t).1 : Nat) : Int) + a.base, (E t).2))
    (hB : ∀ t, t < N → ∀ j, j < n → (E t).1 * ldb + j < B.length) (hlen : s + n ≤ len) :
    Adds len (mmRowBlk K a s (lo + N) (lo + k)) (fun p => if s ≤ p ∧ p < s + n then
      ∑ t ∈ range (min 4 (N - k)), rowTerm alpha B ldb s (E (k + t)) p else 0) := by
  intro C f hC
  unfold mmRowBlk
  rw [mmBlkEnts_eq hk]
  generalize hb : min 4 (N - k) = blk
  have hb4 : blk ≤ 4 := by omega
  simp only [Option.bind_eq_bind]
  have hm : (List.range 4).mapM (fun (q : Nat) => mmEnt a (if q < blk then lo + k + q else lo + k))
      = some (((List.range 4).map fun q => E (if q < blk then k + q else k)).map
        fun e => ((e.1 : Int) + a.base, e.2)) := by
    rw [List.map_map]
    apply mapM_range_some
    intro q hq
    by_cases hqb : q < blk
    · simp only [if_pos hqb, Function.comp]
      rw [show lo + (k : Int) + q = lo + ((k + q : Nat) : Int) by push_cast; ring]
      exact hE _ (by omega)
    · simp only [if_neg hqb, Function.comp]
      exact hE _ hk
  rw [hm]
  simp only [Option.bind_some]
  generalize hes : ((List.range 4).map fun q => E (if q < blk then k + q else k)) = es
  have hesB : ∀ e ∈ es, ∀ j, j < n → e.1 * ldb + j < B.length := by
    intro e he j hj
    rw [← hes, List.mem_map] at he
    obtain ⟨q, _, rfl⟩ := he
    exact hB _ (by split <;> omega) j hj
  have hgrp : ∀ p, grpD alpha B ldb s (es.take blk) p
      = ∑ t ∈ range blk, rowTerm alpha B ldb s (E (k + t)) p := by
    intro p
    unfold grpD
    rw [list_sum_range (g := fun t => rowTerm alpha B ldb s (E (k + t)) p)]
    · congr 2
      rw [← hes]
      simp [hb4]
    · intro t ht
      rw [List.getElem_take]
      have ht' : t < blk := by
        rw [List.length_take] at ht; omega
      simp only [← hes, List.getElem_map, List.getElem_range, if_pos ht']
  have hdiv := Nat.div_add_mod n K
  have e1 : a.n.tdiv (K : Int) = ((n / K : Nat) : Int) := by
    rw [han, Int.tdiv_eq_ediv_of_nonneg (by omega)]; rfl
  have e2 : a.n - (a.n - (K : Int) * a.n.tdiv K) = ((K * (n / K) : Nat) : Int) := by
    rw [e1]; push_cast; ring
  rw [e2, han]
  obtain ⟨C1, g1, r1⟩ := forS_inv (lo := 0) (hi := ((K * (n / K) : Nat) : Int)) (K := K) (k := n / K) hK
    (by push_cast; ring) (f := mmRowVec K a s blk (es.map fun e => ((e.1 : Int) + a.base, e.2))) (s := C)
    (P := fun t C => Rep C len (fun p => if s ≤ p ∧ p < s + K * t then
      f p + grpD alpha B ldb s (es.take blk) p else f p))
    (hC.congr (fun p _ => by rw [if_neg (by omega)])) (by
      intro t C ht hC
      have hle : K * (t + 1) ≤ K * (n / K) := Nat.mul_le_mul_left K ht
      rw [Nat.mul_succ] at hle
      obtain ⟨C', g, r⟩ := mmRowVec_ok (K := K) (n := n) (blk := blk) (j := K * t) ⟨ha.1, ha.2.1, ha.2.2⟩ es hesB
        (by omega) hlen hC
      refine ⟨C', by rw [← g]; push_cast; simp, r.congr (fun p _ => ?_)⟩
      rw [Nat.mul_succ]
      by_cases hp : s + K * t ≤ p ∧ p < s + K * t + K
      · rw [if_pos hp, if_neg (by omega), if_pos (by omega)]
      · rw [if_neg hp]
        by_cases hp' : s ≤ p ∧ p < s + K * t
        · rw [if_pos hp', if_pos (by omega)]
        · rw [if_neg hp', if_neg (by omega)])
  rw [g1]
  simp only [Option.bind_some]
  obtain ⟨C2, g2, j, hj, r2⟩ := forC_inv (lo := ((K * (n / K) : Nat) : Int)) (hi := (n : Int)) (s := C1)
    (f := mmRowRem a s blk (es.map fun e => ((e.1 : Int) + a.base, e.2)))
    (P := fun j C => ∃ t : Nat, j = (t : Int) ∧ Rep C len (fun p => if s ≤ p ∧ p < s + t then
      f p + grpD alpha B ldb s (es.take blk) p else f p)) (by omega) ⟨_, rfl, r1⟩ (by
      rintro j C h1 h2 ⟨t, rfl, hC⟩
      obtain ⟨C', g, r⟩ := mmRowRem_ok (n := n) (blk := blk) (j := t) ⟨ha.1, ha.2.1, ha.2.2⟩ es hesB
        (by omega) hlen hC
      refine ⟨C', g, t + 1, by push_cast; rfl, r.congr (fun p _ => ?_)⟩
      by_cases hp : p = s + t
      · rw [if_pos hp, if_neg (by omega), if_pos (by omega)]
      · rw [if_neg hp]
        by_cases hp' : s ≤ p ∧ p < s + t
        · rw [if_pos hp', if_pos (by omega)]
        · rw [if_neg hp', if_neg (by omega)])
  have : j = n := by omega
  subst this
  refine ⟨C2, g2, r2.congr (fun p _ => ?_)⟩
  by_cases hp : s ≤ p ∧ p < s + j
  · simp only [if_pos hp, hgrp]
  · simp only [if_neg hp, add_zero]

theorem mmRowKtOne_ok {K : Nat} (hK : 0 < K) (hA : A.WF) {len i : Nat} (hi : i < A.m)
    (hB : ∀ l j, l < A.n → j < n → denseOff false ldb l j < B.length) (hlen : i * ldc + n ≤ len) :
    RowOk cj alpha beta A B n ldb ldc len i
      (mmRowKtOne K (mmOf cj alpha beta A B n ldb ldc) i) := by
  have hp1 := hA.rd_ptr (i := i) (by omega)
  have hp2 := hA.rd_ptr (i := i + 1) (by omega)
  rw [show ((i + 1 : Nat) : Int) = (i : Int) + 1 by omega] at hp2
  have hrl := Csr.row_length hA hi
  refine rowOk_of_adds (add := fun C => forS (A.p i) (A.p (i + 1)) 4
      (mmRowBlk K (mmOf cj alpha beta A B n ldb ldc) ((i * ldc : Nat) : Int) (A.p (i + 1))) C) hlen ?_ ?_
  · intro C
    unfold mmRowKtOne
    simp only [mmOf]
    rw [hp1, hp2]
    simp only [Option.bind_eq_bind, Option.bind_some]
    push_cast
    rfl
  · generalize hN : (A.row i).length = N at hrl
    let E : Nat → Nat × R := fun t => if h : t < (A.row i).length then
      ((A.row i)[t].1.toNat, cj (A.row i)[t].2) else (0, 0)
    have hE : ∀ t (ht : t < (A.row i).length), E t = ((A.row i)[t].1.toNat, cj (A.row i)[t].2) :=
      fun t ht => dif_pos ht
    have hends : A.p (i + 1) = A.p i + N := by omega
    have hEnt : ∀ t, t < N → mmEnt (mmOf cj alpha beta A B n ldb ldc) (A.p i + t)
        = some ((((E t).1 : Nat) : Int) + A.base, (E t).2) := by
      intro t ht
      obtain ⟨c, v, e1, e2, e3⟩ := Csr.row_getElem? hA hi (t := t) (by omega)
      have ht' : t < (A.row i).length := by omega
      have e4 : (A.row i)[t] = (c - A.base, v) := by
        rw [List.getElem?_eq_getElem ht'] at e3
        simpa using e3
      have hr := Csr.row_range hA (List.getElem_mem ht')
      rw [hE t ht', e4]
      rw [e4] at hr
      simp only at hr ⊢
      unfold mmEnt
      simp only [mmOf]
      rw [show A.p i + (t : Int) - A.base = A.p i - A.base + t by ring, e1, e2]
      simp only [Option.bind_eq_bind, Option.bind_some]
      rw [Int.toNat_of_nonneg hr.1]
      congr 2
      ring
    have hEB : ∀ t, t < N → ∀ j, j < n → (E t).1 * ldb + j < B.length := by
      intro t ht j hj
      have ht' : t < (A.row i).length := by omega
      have hr := Csr.row_range hA (List.getElem_mem ht')
      rw [hE t ht']
      have := hB (A.row i)[t].1.toNat j (by omega) hj
      simpa [denseOff] using this
    have hadds : Adds len (fun C => forS (A.p i) (A.p (i + 1)) 4
        (mmRowBlk K (mmOf cj alpha beta A B n ldb ldc) ((i * ldc : Nat) : Int) (A.p (i + 1))) C)
        (fun p => if i * ldc ≤ p ∧ p < i * ldc + n then
          ∑ t ∈ range N, rowTerm alpha B ldb (i * ldc) (E t) p else 0) := by
      intro C f hC
      rw [hends]
      unfold forS
      have en : (A.p i + (N : Int) - A.p i + 4 - 1) / 4 = (((N + 3) / 4 : Nat) : Int) := by omega
      rw [en]
      obtain ⟨C', e, r⟩ := forC_inv_nat (n := (N + 3) / 4) (s := C)
        (f := fun k s => mmRowBlk K (mmOf cj alpha beta A B n ldb ldc) ((i * ldc : Nat) : Int)
          (A.p i + (N : Int)) (A.p i + 4 * k) s)
        (P := fun k C => Rep C len (fun p => f p + if i * ldc ≤ p ∧ p < i * ldc + n then
          ∑ t ∈ range (min (4 * k) N), rowTerm alpha B ldb (i * ldc) (E t) p else 0))
        (hC.congr (fun p _ => by simp)) (by
          intro k C hk hC
          obtain ⟨C', e, r⟩ := mmRowBlk_ok (n := n) (s := i * ldc) (len := len) hK (a := mmOf cj alpha beta A B n ldb ldc)
            ⟨rfl, rfl, rfl⟩ rfl (lo := A.p i) (N := N) (k := 4 * k) (by omega) E hEnt hEB hlen C _ hC
          refine ⟨C', by rw [← e]; push_cast; rfl, r.congr (fun p _ => ?_)⟩
          by_cases hp : i * ldc ≤ p ∧ p < i * ldc + n
          · simp only [if_pos hp]
            rw [add_assoc]
            congr 1
            rw [show min (4 * k) N = 4 * k by omega,
              show min (4 * (k + 1)) N = 4 * k + min 4 (N - 4 * k) by omega, sum_range_add]
            rfl
          · simp only [if_neg hp, add_zero])
      refine ⟨C', e, r.congr (fun p _ => ?_)⟩
      rw [show min (4 * ((N + 3) / 4)) N = N by omega]
    refine hadds.congr (fun _ => rfl) (fun p _ => ?_)
    by_cases hp : i * ldc ≤ p ∧ p < i * ldc + n
    · rw [if_pos hp, if_pos hp, ← rowTerm_sum, list_sum_range (g := fun t => rowTerm alpha B ldb (i * ldc) (E t) p), hN]
      intro t ht
      rw [hE t ht]
    · rw [if_neg hp, if_neg hp]

theorem rowLen {ldc m n len : Nat} (hn : 0 < n)
    (hC : ∀ i j, i < m → j < n → denseOff false ldc i j < len) {i : Nat} (hi : i < m) :
    i * ldc + n ≤ len := by
  have := hC i (n - 1) hi (by omega)
  simp only [denseOff, Bool.false_eq_true, if_false] at this
  omega

theorem mmRowRef_ok {w : Nat} {tm : MmTeam} (hT : 0 < tm.T) (hov : (A.m : Int) * tm.T ≤ intMax w)
    (hord : tm.ord.Perm (List.range tm.T)) (hA : A.WF) (hld : n ≤ ldc) (hn : 0 < n)
    (hB : ∀ l j, l < A.n → j < n → denseOff false ldb l j < B.length) {C : List R}
    (hC : ∀ i j, i < A.m → j < n → denseOff false ldc i j < C.length) :
    ∃ C', mmRowRef w tm (mmOf cj alpha beta A B n ldb ldc) C = some C' ∧
      Rep C' C.length (doneF ldc (fun a b => a < A.m ∧ b < n)
        (cellRow cj alpha beta A B ldb) (fun p => C.getD p 0)) :=
  rows_team hT hov hord hld hn _ (fun i hi => mmRowOne_ok hA hi hB (rowLen hn hC hi))

theorem mmRowKt_ok {w : Nat} {tm : MmTeam} {K : Nat} (hK : 0 < K) (hT : 0 < tm.T)
    (hov : (A.m : Int) * tm.T ≤ intMax w)
    (hord : tm.ord.Perm (List.range tm.T)) (hA : A.WF) (hld : n ≤ ldc) (hn : 0 < n)
    (hB : ∀ l j, l < A.n → j < n → denseOff false ldb l j < B.length) {C : List R}
    (hC : ∀ i j, i < A.m → j < n → denseOff false ldc i j < C.length) :
    ∃ C', mmRowKt w tm K (mmOf cj alpha beta A B n ldb ldc) C = some C' ∧
      Rep C' C.length (doneF ldc (fun a b => a < A.m ∧ b < n)
        (cellRow cj alpha beta A B ldb) (fun p => C.getD p 0)) :=
  rows_team hT hov hord hld hn _ (fun i hi => mmRowKtOne_ok hK hA hi hB (rowLen hn hC hi))

end Verif
