import Verif.Proofs.SchedMm

/-!
Which cells of C the iterations of the sparse times dense product access, in any arithmetic.
-/

namespace Verif
open Model

variable {R : Type}

/-! ### what is read is there -/

namespace MmS
variable {A : Csr R}

theorem p_bounds (hA : A.WF) {i : Nat} (hi : i ≤ A.m) : A.base ≤ A.p i ∧ A.p i ≤ A.base + A.ind.length := by
  constructor
  · induction i with
    | zero => exact hA.ptr_first.ge
    | succ i ih => exact (ih (by omega)).trans (hA.ptr_mono i (by omega))
  · have : ∀ k, i + k ≤ A.m → A.p i ≤ A.p (i + k) := by
      intro k
      induction k with
      | zero => intro _; exact le_rfl
      | succ k ih => intro h; exact (ih (by omega)).trans (hA.ptr_mono (i + k) (by omega))
    have h := this (A.m - i) (by omega)
    rw [show i + (A.m - i) = A.m by omega, hA.ptr_last] at h
    exact h

theorem ent (hA : A.WF) {k : Int} (h0 : A.base ≤ k) (h1 : k < A.base + A.ind.length) :
    ∃ c : Nat, c < A.n ∧ ∃ v, rd A.ind (k - A.base) = some (A.base + c) ∧ rd A.val (k - A.base) = some v := by
  obtain ⟨c, hc⟩ := rd_exists (a := A.ind) (i := k - A.base) (by omega) (by omega)
  obtain ⟨v, hv⟩ := rd_exists (a := A.val) (i := k - A.base) (by omega) (by rw [hA.val_len]; omega)
  have hm : c ∈ A.ind := by
    rw [rd_eq (by omega)] at hc
    exact List.mem_of_getElem? hc
  obtain ⟨g1, g2⟩ := hA.ind_range c hm
  refine ⟨(c - A.base).toNat, by omega, v, ?_, hv⟩
  rw [hc]; congr 1; omega

/-- total accumulation loops -/
theorem forC_tot {σ : Type} {lo hi : Int} {f : Int → σ → Option σ} (h : ∀ i s, lo ≤ i → i < hi → ∃ s', f i s = some s')
    (s : σ) : ∃ s', forC lo hi f s = some s' := by
  by_cases hle : lo ≤ hi
  · obtain ⟨s', e, -⟩ := forC_inv (f := f) (s := s) (P := fun _ _ => True) hle trivial
      (fun i s h1 h2 _ => by obtain ⟨s', e⟩ := h i s h1 h2; exact ⟨s', e, trivial⟩)
    exact ⟨s', e⟩
  · exact ⟨s, forC_ge (by omega) ..⟩

theorem mapM_tot {α β : Type} {f : α → Option β} {l : List α} (h : ∀ x ∈ l, ∃ y, f x = some y) :
    ∃ ys, l.mapM f = some ys ∧ ys.length = l.length ∧ ∀ y ∈ ys, ∃ x ∈ l, f x = some y := by
  induction l with
  | nil => exact ⟨[], rfl, rfl, by simp⟩
  | cons x l ih =>
    obtain ⟨y, hy⟩ := h x (by simp)
    obtain ⟨ys, e, hl, hm⟩ := ih fun z hz => h z (by simp [hz])
    refine ⟨y :: ys, by rw [List.mapM_cons, hy, e]; rfl, by simp [hl], ?_⟩
    intro z hz
    rcases List.mem_cons.1 hz with rfl | hz
    · exact ⟨x, by simp, hy⟩
    · obtain ⟨x', hx', e'⟩ := hm z hz
      exact ⟨x', by simp [hx'], e'⟩

end MmS

section tot
variable [Zero R] [Add R] [Mul R] {cj : R → R} {alpha beta : R} {A : Csr R} {B : List R} {n ldb ldc : Nat}

/-- B has every element the product uses -/
def MmReads (col : Bool) (A : Csr R) (B : List R) (n ldb : Nat) : Prop :=
  ∀ l j : Nat, l < A.n → j < n → denseOff col ldb l j < B.length

omit [Zero R] [Add R] in
theorem mmTerm_tot (hA : A.WF) (hB : MmReads true A B n ldb) {j : Nat} (hj : j < n) {k : Int} (h0 : A.base ≤ k)
    (h1 : k < A.base + A.ind.length) :
    ∃ x, mmTerm cj A.ind A.val B ((j : Int) * ldb - A.base) (k - A.base) = some x := by
  obtain ⟨c, hc, v, e1, e2⟩ := MmS.ent hA h0 h1
  have hb := hB c j hc hj
  unfold denseOff at hb
  rw [if_pos rfl] at hb
  have e : (j : Int) * ldb - A.base + (A.base + c) = ((c + ldb * j : Nat) : Int) := by push_cast; ring
  obtain ⟨b, hb⟩ := rd_exists (a := B) (i := (j : Int) * ldb - A.base + (A.base + c)) (by rw [e]; omega)
    (by rw [e]; omega)
  exact ⟨cj v * b, by unfold mmTerm; simp only [e1, e2, hb, Option.bind_eq_bind, Option.bind_some]⟩

omit [Zero R] in
theorem mmDotSeq_tot (hA : A.WF) (hB : MmReads true A B n ldb) {j : Nat} (hj : j < n) {lo hi : Int}
    (h0 : A.base ≤ lo) (h1 : hi ≤ A.base + A.ind.length) (init : R) :
    ∃ x, mmDotSeq (mmOf cj alpha beta A B n ldb ldc) ((j : Int) * ldb - A.base) lo hi init = some x := by
  unfold mmDotSeq
  refine MmS.forC_tot (fun k s h2 h3 => ?_) init
  obtain ⟨x, e⟩ := mmTerm_tot (cj := cj) hA hB hj (k := k) (by omega) (by omega)
  exact ⟨x + s, by
    show (mmTerm cj A.ind A.val B ((j : Int) * ldb - A.base) (k - A.base)).bind _ = _
    rw [e]; rfl⟩

theorem mmDotK_tot (V : Vec R) {K : Nat} (hK : 0 < K) (hA : A.WF) (hB : MmReads true A B n ldb) {j : Nat} (hj : j < n)
    {lo hi : Int} (h0 : A.base ≤ lo) (hle : lo ≤ hi) (h1 : hi ≤ A.base + A.ind.length) :
    ∃ x, mmDotK V K (mmOf cj alpha beta A B n ldb ldc) ((j : Int) * ldb - A.base) lo hi = some x := by
  unfold mmDotK
  have hdiv : (hi - lo).tdiv K = (((hi - lo).toNat / K : Nat) : Int) := by
    rw [Int.tdiv_eq_ediv_of_nonneg (by omega), Int.natCast_ediv, Int.toNat_of_nonneg (by omega)]
  have hmul : K * ((hi - lo).toNat / K) ≤ (hi - lo).toNat := Nat.mul_div_le _ _
  have e1 : hi - (hi - lo - K * ((hi - lo).tdiv K)) = lo + ((K * ((hi - lo).toNat / K) : Nat) : Int) := by
    rw [hdiv]; push_cast; ring
  obtain ⟨v, ev, -⟩ := forS_inv hK e1 (s := V.zero) (P := fun _ _ => True)
    (f := fun idx v => (mmLanes K (mmOf cj alpha beta A B n ldb ldc) ((j : Int) * ldb - A.base) (idx - A.base)).bind
      fun L => some (V.fma L v)) trivial (by
    intro t s ht _
    have hr : K * (t + 1) ≤ K * ((hi - lo).toNat / K) := Nat.mul_le_mul_left _ ht
    rw [Nat.mul_add, Nat.mul_one] at hr
    obtain ⟨L, eL, -⟩ := MmS.mapM_tot (l := List.range K) (f := fun (l : Nat) => (do
        let c ← rd A.ind (lo + (K * t : Nat) - A.base + (l : Int))
        let v ← rd A.val (lo + (K * t : Nat) - A.base + (l : Int))
        let b ← rd B ((j : Int) * ldb - A.base + c)
        some (cj v, b) : Option (R × R))) (by
      intro l hl
      have hl : l < K := List.mem_range.1 hl
      obtain ⟨c, hc, v, e1, e2⟩ := MmS.ent hA (k := lo + (K * t : Nat) + l) (by omega) (by omega)
      rw [show lo + ((K * t : Nat) : Int) + l - A.base = lo + (K * t : Nat) - A.base + l by ring] at e1 e2
      have hb := hB c j hc hj
      unfold denseOff at hb
      rw [if_pos rfl] at hb
      have e : (j : Int) * ldb - A.base + (A.base + c) = ((c + ldb * j : Nat) : Int) := by push_cast; ring
      obtain ⟨b, hb⟩ := rd_exists (a := B) (i := (j : Int) * ldb - A.base + (A.base + c)) (by rw [e]; omega)
        (by rw [e]; omega)
      exact ⟨(cj v, b), by simp only [e1, e2, hb, Option.bind_eq_bind, Option.bind_some]⟩)
    refine ⟨V.fma L s, ?_, trivial⟩
    show (mmLanes K _ _ _).bind _ = _
    have : mmLanes K (mmOf cj alpha beta A B n ldb ldc) ((j : Int) * ldb - A.base) (lo + (K * t : Nat) - A.base) = some L := eL
    rw [this]; rfl)
  obtain ⟨x, ex⟩ := mmDotSeq_tot (cj := cj) (alpha := alpha) (beta := beta) (ldc := ldc) hA hB hj
    (lo := hi - (hi - lo - K * ((hi - lo).tdiv K))) (hi := hi) (by rw [e1]; omega) h1
    (if (hi - lo).tdiv K ≠ 0 then 0 + V.hsum v else 0)
  refine ⟨x, ?_⟩
  show (forS _ _ _ _ _).bind _ = _
  refine (congrArg (fun o => Option.bind o _) ev).trans ?_
  exact ex

/-! ### the cells each iteration owns -/

/-- column `j` of C -/
def ownCol (m ldc : Nat) (j : Nat) (x : Int) : Prop := ∃ i : Nat, i < m ∧ x = (i : Int) + j * ldc

/-- row `i` of C -/
def ownRow (n ldc : Nat) (i : Nat) (x : Int) : Prop := ∃ k : Nat, k < n ∧ x = (i : Int) * ldc + k

/-- a block of at most four columns of C -/
def ownBlk (m n ldc : Nat) (b : Nat) (x : Int) : Prop :=
  ∃ q i : Nat, q < blk4 n (4 * b) ∧ i < m ∧ x = ((4 * b + q : Nat) : Int) * ldc + i

theorem ownCol_inj {m ldc : Nat} (h : m ≤ ldc) {j j' : Nat} {x : Int} (h1 : ownCol m ldc j x) (h2 : ownCol m ldc j' x) :
    j = j' := by
  obtain ⟨i, hi, rfl⟩ := h1
  obtain ⟨i', hi', e⟩ := h2
  have e : i + j * ldc = i' + j' * ldc := by exact_mod_cast e
  have h3 : (i + j * ldc) / ldc = j := by
    rw [Nat.add_mul_div_right _ _ (by omega), Nat.div_eq_of_lt (by omega)]; omega
  have h4 : (i' + j' * ldc) / ldc = j' := by
    rw [Nat.add_mul_div_right _ _ (by omega), Nat.div_eq_of_lt (by omega)]; omega
  rw [← h3, ← h4, e]

theorem ownRow_col {n ldc i : Nat} {x : Int} : ownRow n ldc i x ↔ ownCol n ldc i x := by
  unfold ownRow ownCol
  constructor <;> rintro ⟨k, hk, rfl⟩ <;> exact ⟨k, hk, by ring⟩

theorem ownRow_inj {n ldc : Nat} (h : n ≤ ldc) {i i' : Nat} {x : Int} (h1 : ownRow n ldc i x) (h2 : ownRow n ldc i' x) :
    i = i' := ownCol_inj h (ownRow_col.1 h1) (ownRow_col.1 h2)

theorem ownBlk_inj {m n ldc : Nat} (h : m ≤ ldc) {b b' : Nat} {x : Int} (h1 : ownBlk m n ldc b x)
    (h2 : ownBlk m n ldc b' x) : b = b' := by
  obtain ⟨q, i, hq, hi, e⟩ := h1
  obtain ⟨q', i', hq', hi', e'⟩ := h2
  have h3 : ownCol m ldc (4 * b + q) x := ⟨i, hi, by rw [e]; ring⟩
  have h4 : ownCol m ldc (4 * b' + q') x := ⟨i', hi', by rw [e']; ring⟩
  have := ownCol_inj h h3 h4
  unfold blk4 at hq hq'
  omega

/-! ### the iterations stay inside their cells -/

theorem mmColP_safe (hA : A.WF) (hB : MmReads true A B n ldb) {j : Nat} (hj : j < n) :
    (mmColP (mmOf cj alpha beta A B n ldb ldc) j).Safe (ownCol A.m ldc j) (fun _ => True) := by
  refine ThP.Safe.forU fun i h0 h1 => ?_
  obtain ⟨i, rfl⟩ := Int.eq_ofNat_of_zero_le h0
  have hi : i < A.m := by
    have : (i : Int) < A.m := h1
    omega
  have e2 : rd A.ptr ((i : Int) + 1) = some (A.p (i + 1)) := by
    have := hA.rd_ptr (i := i + 1) (by omega)
    rwa [Nat.cast_succ] at this
  obtain ⟨s, es⟩ := mmDotSeq_tot (cj := cj) (alpha := alpha) (beta := beta) (ldc := ldc) hA hB hj
    (MmS.p_bounds hA (i := i) (by omega)).1 (MmS.p_bounds hA (i := i + 1) (by omega)).2 0
  unfold mmColCellP
  exact ThP.Safe.lift (hA.rd_ptr (by omega)) (ThP.Safe.lift e2 (ThP.Safe.lift es (updP_safe ⟨i, hi, rfl⟩ _)))

theorem mmScaleRowP_safe {i : Nat} :
    (mmScaleRowP (mmOf cj alpha beta A B n ldb ldc) ((i : Int) * ldc)).Safe (ownRow n ldc i) (fun _ => True) := by
  refine ThP.Safe.forU fun k h0 h1 => updP_safe ?_ _
  have h1 : k < (n : Int) := h1
  exact ⟨k.toNat, by omega, by omega⟩

theorem rd_B_row (hB : MmReads false A B n ldb) {c k : Nat} (hc : c < A.n) (hk : k < n) {x : Int} (hx : x = c * ldb + k) :
    ∃ b, rd B x = some b := by
  have hb := hB c k hc hk
  unfold denseOff at hb
  rw [if_neg (by decide)] at hb
  have e : x = ((c * ldb + k : Nat) : Int) := by rw [hx]; push_cast; ring
  exact rd_exists (by rw [e]; omega) (by rw [e]; omega)

theorem mmRowOneP_safe (hA : A.WF) (hB : MmReads false A B n ldb) {i : Nat} (hi : i < A.m) :
    (mmRowOneP (mmOf cj alpha beta A B n ldb ldc) i).Safe (ownRow n ldc i) (fun _ => True) := by
  have e2 : rd A.ptr ((i : Int) + 1) = some (A.p (i + 1)) := by
    have := hA.rd_ptr (i := i + 1) (by omega)
    rwa [Nat.cast_succ] at this
  unfold mmRowOneP
  refine ThP.Safe.lift (hA.rd_ptr (by omega)) (ThP.Safe.lift e2 (mmScaleRowP_safe.bind fun _ _ => ?_))
  refine ThP.Safe.forU fun k h0 h1 => ?_
  have b1 := (MmS.p_bounds hA (i := i) (by omega)).1
  have b2 := (MmS.p_bounds hA (i := i + 1) (by omega)).2
  obtain ⟨c, hc, v, e3, e4⟩ := MmS.ent hA (k := k) (by omega) (by omega)
  unfold mmAxpyRowP
  refine ThP.Safe.lift e3 (ThP.Safe.lift e4 (ThP.Safe.forU fun q h2 h3 => ?_))
  obtain ⟨q, rfl⟩ := Int.eq_ofNat_of_zero_le h2
  have hq : q < n := by
    have : (q : Int) < n := h3
    omega
  obtain ⟨b, hb⟩ := rd_B_row hB hc hq (x := (A.base + c) * ldb - A.base * ldb + q) (by ring)
  exact ThP.Safe.lift hb (updP_safe ⟨q, hq, rfl⟩ _)

theorem mmBlkEnts_le {e k : Int} (h : k < e) : k + (mmBlkEnts e k : Nat) ≤ e := by
  unfold mmBlkEnts
  split
  · push_cast; omega
  · split
    · push_cast; omega
    · split
      · push_cast; omega
      · push_cast; omega

theorem mmEnt_tot (hA : A.WF) {k : Int} (h0 : A.base ≤ k) (h1 : k < A.base + A.ind.length) :
    ∃ e, mmEnt (mmOf cj alpha beta A B n ldb ldc) k = some e ∧ ∃ c : Nat, c < A.n ∧ e.1 = A.base + c := by
  obtain ⟨c, hc, v, e1, e2⟩ := MmS.ent hA h0 h1
  refine ⟨(A.base + c, cj v), ?_, c, hc, rfl⟩
  show (rd A.ind (k - A.base)).bind _ = _
  rw [e1]
  show (rd A.val (k - A.base)).bind _ = _
  rw [e2]
  rfl

theorem mmRowVecP_safe {K : Nat} (hB : MmReads false A B n ldb) {i j blkr : Nat} {es : List (Int × R)}
    (hes : ∀ e ∈ es, ∃ c : Nat, c < A.n ∧ e.1 = A.base + c) (hj : j + K ≤ n) :
    (mmRowVecP K (mmOf cj alpha beta A B n ldb ldc) ((i : Int) * ldc) blkr es j).Safe (ownRow n ldc i)
      (fun _ => True) := by
  unfold mmRowVecP
  refine (readsP_safe ?_).bind fun cs hcs => ?_
  · intro k hk
    obtain ⟨l, hl, rfl⟩ := List.mem_map.1 hk
    have hl := List.mem_range.1 hl
    exact ⟨j + l, by omega, by push_cast; ring⟩
  rw [List.length_map, List.length_range] at hcs
  obtain ⟨bs, ebs, -, hbs⟩ := MmS.mapM_tot (l := es) (f := fun e : Int × R => (do
      let b ← vload B (j + (e.1 * ldb - A.base * ldb)) K
      some (alpha * e.2, b) : Option (R × List R))) (by
    intro e he
    obtain ⟨c, hc, e1⟩ := hes e he
    obtain ⟨ys, ey, -, -⟩ := MmS.mapM_tot (l := List.range K)
      (f := fun (l : Nat) => rd B (j + (e.1 * ldb - A.base * ldb) + (l : Int))) (by
      intro l hl
      have hl := List.mem_range.1 hl
      exact rd_B_row hB hc (k := j + l) (by omega) (by rw [e1]; push_cast; ring))
    have ey : vload B (j + (e.1 * ldb - A.base * ldb)) K = some ys := ey
    exact ⟨(alpha * e.2, ys), by simp only [ey, Option.bind_eq_bind, Option.bind_some]⟩)
  refine ThP.Safe.lift ebs ?_
  have hfold : ∀ (L : List (R × List R)) (c : List R), c.length ≤ K →
      (L.foldl (fun c ab => List.zipWith (fun b c => ab.1 * b + c) ab.2 c) c).length ≤ K := by
    intro L
    induction L with
    | nil => intro c h; exact h
    | cons x L ih => intro c h; exact ih _ (by rw [List.length_zipWith]; omega)
  refine ThP.Safe.forU fun l h0 h1 => ?_
  obtain ⟨x, hx⟩ := rd_exists h0 h1
  refine ThP.Safe.lift hx ⟨⟨j + l.toNat, ?_, ?_⟩, trivial⟩
  · have := hfold (bs.take blkr) cs hcs.le
    omega
  · push_cast
    rw [Int.toNat_of_nonneg h0]; ring

theorem mmRowRemP_safe (hB : MmReads false A B n ldb) {i j blkr : Nat} {es : List (Int × R)}
    (hes : ∀ e ∈ es, ∃ c : Nat, c < A.n ∧ e.1 = A.base + c) (hj : j < n) :
    (mmRowRemP (mmOf cj alpha beta A B n ldb ldc) ((i : Int) * ldc) blkr es j).Safe (ownRow n ldc i)
      (fun _ => True) := by
  refine seqP_safe fun e he => ?_
  obtain ⟨c, hc, e1⟩ := hes e (List.mem_of_mem_take he)
  obtain ⟨b, hb⟩ := rd_B_row hB hc hj (x := e.1 * ldb - A.base * ldb + j) (by rw [e1]; ring)
  exact ThP.Safe.lift hb (updP_safe ⟨j, hj, rfl⟩ _)

theorem mmRowKtOneP_safe {K : Nat} (hK : 0 < K) (hA : A.WF) (hB : MmReads false A B n ldb) {i : Nat} (hi : i < A.m) :
    (mmRowKtOneP K (mmOf cj alpha beta A B n ldb ldc) i).Safe (ownRow n ldc i) (fun _ => True) := by
  have e2 : rd A.ptr ((i : Int) + 1) = some (A.p (i + 1)) := by
    have := hA.rd_ptr (i := i + 1) (by omega)
    rwa [Nat.cast_succ] at this
  have b1 := (MmS.p_bounds hA (i := i) (by omega)).1
  have b2 := (MmS.p_bounds hA (i := i + 1) (by omega)).2
  unfold mmRowKtOneP
  refine mmScaleRowP_safe.bind fun _ _ => ThP.Safe.lift (hA.rd_ptr (by omega)) (ThP.Safe.lift e2 ?_)
  refine ThP.Safe.forSU (by decide) fun k h0 h1 => ?_
  obtain ⟨es, ees, -, hes⟩ := MmS.mapM_tot (l := List.range 4) (f := fun (q : Nat) =>
      mmEnt (mmOf cj alpha beta A B n ldb ldc) (if q < mmBlkEnts (A.p (i + 1)) k then k + q else k)) (by
    intro q hq
    have hq := List.mem_range.1 hq
    refine (mmEnt_tot hA ?_ ?_).imp fun e h => h.1
    · split <;> omega
    · have := mmBlkEnts_le h1
      split <;> omega)
  have hes' : ∀ e ∈ es, ∃ c : Nat, c < A.n ∧ e.1 = A.base + c := by
    intro e he
    obtain ⟨q, hq, eq⟩ := hes e he
    have hq := List.mem_range.1 hq
    obtain ⟨e', ee', h⟩ := mmEnt_tot (cj := cj) (alpha := alpha) (beta := beta) (B := B) (n := n) (ldb := ldb)
      (ldc := ldc) hA (k := if q < mmBlkEnts (A.p (i + 1)) k then k + q else k) (by split <;> omega) (by
        have := mmBlkEnts_le h1
        split <;> omega)
    rw [ee'] at eq
    cases eq
    exact h
  have hdiv : (n : Int).tdiv K = ((n / K : Nat) : Int) := by
    rw [Int.tdiv_eq_ediv_of_nonneg (by omega), Int.natCast_ediv]
  have hmul : K * (n / K) ≤ n := Nat.mul_div_le _ _
  have e3 : (n : Int) - (n - K * (n : Int).tdiv K) = ((K * (n / K) : Nat) : Int) := by
    rw [hdiv]; push_cast; ring
  unfold mmRowBlkP
  refine ThP.Safe.lift ees ?_
  show (ThP.bind (ThP.forSP 0 ((n : Int) - (n - K * (n : Int).tdiv K)) K _ ()) fun _ =>
    ThP.forP ((n : Int) - (n - K * (n : Int).tdiv K)) (n : Int) _ ()).Safe _ _
  rw [e3]
  refine ThP.Safe.bind (P := fun _ => True) ?_ fun _ _ => ?_
  · unfold ThP.forSP
    refine ThP.Safe.forU fun t h2 h3 => ?_
    obtain ⟨t, rfl⟩ := Int.eq_ofNat_of_zero_le h2
    have h4 : ((K * (n / K) : Nat) : Int) - 0 + K - 1 = (K - 1 : Int) + (n / K : Nat) * K := by push_cast; ring
    rw [h4, Int.add_mul_ediv_right _ _ (by omega), Int.ediv_eq_zero_of_lt (by omega) (by omega)] at h3
    have ht : t + 1 ≤ n / K := by omega
    have hr : K * (t + 1) ≤ K * (n / K) := Nat.mul_le_mul_left _ ht
    rw [Nat.mul_add, Nat.mul_one] at hr
    rw [show (0 : Int) + K * (t : Int) = ((K * t : Nat) : Int) by push_cast; ring]
    exact mmRowVecP_safe hB hes' (by omega)
  · refine ThP.Safe.forU fun t h2 h3 => ?_
    obtain ⟨t, rfl⟩ := Int.eq_ofNat_of_zero_le (le_trans (by omega) h2)
    exact mmRowRemP_safe hB hes' (by omega)

/-! ### the blocks of the column-major kernel -/

/-- block `b` of four columns -/
def mmBlkP (V : Vec R) (K : Nat) (a : MmIn R) (n : Nat) (b : Int) : ThP Int R Unit :=
  ThP.forP 0 a.m (fun i _ => mmColBlkRowP V K a (blk4 n (4 * b).toNat : Nat) (4 * b) i) ()

theorem mmPutP_safe {b q i : Nat} (hi : i < A.m) (d : R) :
    (mmPutP (mmOf cj alpha beta A B n ldb ldc) (blk4 n (4 * b) : Nat) (4 * b : Nat) q i d).Safe
      (ownBlk A.m n ldc b) (fun _ => True) := by
  unfold mmPutP
  by_cases h : (q : Int) < (blk4 n (4 * b) : Nat)
  · rw [if_pos h]
    exact updP_safe ⟨q, i, by omega, hi, by push_cast; rfl⟩ _
  · rw [if_neg h]; exact trivial

theorem mmBlkP_safe (V : Vec R) {K : Nat} (hK : 0 < K) (hA : A.WF) (hB : MmReads true A B n ldb) {b : Nat}
    (hb : 4 * b < n) :
    (mmBlkP V K (mmOf cj alpha beta A B n ldb ldc) n b).Safe (ownBlk A.m n ldc b) (fun _ => True) := by
  unfold mmBlkP
  refine ThP.Safe.forU fun i h0 h1 => ?_
  obtain ⟨i, rfl⟩ := Int.eq_ofNat_of_zero_le h0
  have hi : i < A.m := by
    have : (i : Int) < A.m := h1
    omega
  have e2 : rd A.ptr ((i : Int) + 1) = some (A.p (i + 1)) := by
    have := hA.rd_ptr (i := i + 1) (by omega)
    rwa [Nat.cast_succ] at this
  rw [show (4 : Int) * (b : Int) = ((4 * b : Nat) : Int) by push_cast; rfl, Int.toNat_natCast]
  have hd : ∀ q : Nat, q < 4 → ∃ d, mmDotK V K (mmOf cj alpha beta A B n ldb ldc)
      (mmBlkCol n (4 * b : Nat) q * ldb - A.base) (A.p i) (A.p (i + 1)) = some d := by
    intro q hq
    rw [mmBlkCol_eq hb hq]
    refine mmDotK_tot V hK hA hB ?_ (MmS.p_bounds hA (by omega)).1 (hA.ptr_mono i hi) (MmS.p_bounds hA (by omega)).2
    split
    · unfold blk4 at *; omega
    · exact hb
  obtain ⟨d0, e0⟩ := hd 0 (by omega)
  obtain ⟨d1, e1⟩ := hd 1 (by omega)
  obtain ⟨d2, e2'⟩ := hd 2 (by omega)
  obtain ⟨d3, e3⟩ := hd 3 (by omega)
  unfold mmColBlkRowP
  refine ThP.Safe.lift (hA.rd_ptr (by omega)) (ThP.Safe.lift e2 (ThP.Safe.lift e0 (ThP.Safe.lift e1
    (ThP.Safe.lift e2' (ThP.Safe.lift e3 ?_)))))
  exact (mmPutP_safe (q := 3) hi d3).bind fun _ _ => (mmPutP_safe (q := 2) hi d2).bind fun _ _ =>
    (mmPutP_safe (q := 1) hi d1).bind fun _ _ => mmPutP_safe (q := 0) hi d0

end tot

end Verif
