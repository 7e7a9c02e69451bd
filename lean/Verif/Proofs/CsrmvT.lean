/-
Transposed CSR products.
-/
import Verif.Proofs.Seg

namespace Verif
open Model Finset

variable {R : Type} [CommSemiring R] [DecidableEq R]

theorem Csr.row_cols {A : Csr R} (h : A.WF) {i len : Nat} (hl : A.n ≤ len) :
    ∀ e ∈ A.row i, 0 ≤ e.1 ∧ e.1 < len := by
  intro e he
  have := Csr.row_range h he
  omega

/-- contribution of row `i` to cell `k` of the transposed product -/
def tD (cj : R →+ R) (A : Csr R) (alpha : R) (x : List R) (i k : Nat) : R :=
  cj (A.mat i k) * (alpha * x.getD i 0)

theorem tD_sum {cj : R →+ R} {A : Csr R} {alpha : R} {x : List R} (i k : Nat) :
    ((A.row i).map fun e => if (k : Int) = e.1 then cj e.2 * (alpha * x.getD i 0) else 0).sum
      = tD cj A alpha x i k := by
  have := sum_ite_filter (A.row i) ((AddMonoidHom.mulRight (alpha * x.getD i 0)).comp cj) k
  simp only [AddMonoidHom.coe_comp, Function.comp, AddMonoidHom.coe_mulRight] at this
  rw [this]
  rfl

theorem rd_getD_lt {x : List R} {i : Nat} (h : i < x.length) :
    rd x (i : Int) = some (x.getD i 0) := by
  rw [rd_ofNat, List.getElem?_eq_getElem h, List.getD_eq_getElem?_getD,
    List.getElem?_eq_getElem h]
  rfl

theorem csrmvTh_adds (cj : R →+ R) {A : Csr R} (h : A.WF) (alpha : R) {x : List R}
    (hx : A.m ≤ x.length) {len : Nat} (hl : A.n ≤ len) :
    Adds len (forC 0 (A.m : Int) (fun i y => do
      let lo ← rd A.ptr i
      let hi ← rd A.ptr (i + 1)
      let xi ← rd x i
      let axi := alpha * xi
      forC lo hi (fun j y => do
        let c ← rd A.ind (j - A.base)
        let v ← rd A.val (j - A.base)
        addAt y (c - A.base) (cj v * axi)) y))
      (fun k => ∑ i ∈ range A.m, tD cj A alpha x i k) := by
  apply adds_forC
  intro i hi
  refine (adds_seg (A.seg_row h hi) (Csr.row_cols h hl)
    (fun v => cj v * (alpha * x.getD i 0))).congr ?_ ?_
  · intro y
    have e1 := Csr.WF.rd_ptr h (i := i) (by omega)
    have e2 := Csr.WF.rd_ptr h (i := i + 1) (by omega)
    rw [show ((i + 1 : Nat) : Int) = (i : Int) + 1 by push_cast; rfl] at e2
    simp only [e1, e2, rd_getD_lt (show i < x.length by omega), Option.bind_eq_bind,
      Option.bind_some]
  · intro k _
    exact (tD_sum i k).symm

theorem tD_total (cj : R →+ R) (A : Csr R) (alpha : R) (x : List R) (k : Nat) :
    ∑ i ∈ range A.m, tD cj A alpha x i k
      = alpha * matVec (fun i j => cj (A.mat j i)) A.m x k := by
  unfold matVec tD
  rw [mul_sum]
  apply sum_congr rfl
  intro i _
  ring

theorem Csr.mat_zero {A : Csr R} (h : A.WF) (i : Nat) {k : Nat} (hk : A.n ≤ k) :
    A.mat i k = 0 := by
  unfold Csr.mat Csr.entry
  rw [List.filter_eq_nil_iff.mpr]
  · rfl
  · intro e he
    have := Csr.row_range h he
    simp only [decide_eq_true_eq]
    omega

theorem csrmvTh_spec (cj : R →+ R) {A : Csr R} (h : A.WF) (alpha beta : R) {x y : List R}
    (hx : A.m ≤ x.length) (hy : A.n ≤ y.length) :
    ∃ y', csrmvTh cj A.base alpha A.m A.n A.val A.ind A.ptr x beta y = some y' ∧
      IsMv alpha beta (fun i j => cj (A.mat j i)) A.n A.m x y y' := by
  refine isMv_of_adds hy (csrmvTh_adds cj h alpha hx hy) (fun k _ => tD_total cj A alpha x k) ?_
  intro k hk
  apply sum_eq_zero
  intro i _
  simp [tD, Csr.mat_zero h i hk]

/-! ### csrmvt_kt -/

/-- position-wise contribution of a segment -/
def segAdd (w : R → R) (S : List (Int × R)) (t k : Nat) : R :=
  if ht : t < S.length then (if (k : Int) = S[t].1 then w S[t].2 else 0) else 0

theorem segAdd_sum (w : R → R) (S : List (Int × R)) (k : Nat) :
    (S.map fun e => if (k : Int) = e.1 then w e.2 else 0).sum
      = ∑ t ∈ range S.length, segAdd w S t k := by
  rw [list_sum_range]
  intro t ht
  rw [segAdd, dif_pos ht]

theorem sum_blocks (f : Nat → R) (K n : Nat) :
    ∑ t ∈ range (K * n), f t = ∑ i ∈ range n, ∑ l ∈ range K, f (K * i + l) := by
  induction n with
  | zero => simp
  | succ n ih => rw [sum_range_block, ih, sum_range_succ]

theorem csrmvtRow_adds {K : Nat} (hK : 0 < K) {ind : List Int} {val : List R} {base lo hi : Int}
    {S : List (Int × R)} (h : Seg ind val base lo hi S) {len : Nat}
    (hr : ∀ e ∈ S, 0 ≤ e.1 ∧ e.1 < len) (alpha xi : R) :
    Adds len (csrmvtRow K base alpha val ind lo hi xi)
      (fun k => (S.map fun e => if (k : Int) = e.1 then e.2 * (alpha * xi) else 0).sum) := by
  have hlen : hi - lo = (S.length : Int) := by have := h.1; omega
  have hrem : (hi - lo).tmod K = ((S.length % K : Nat) : Int) := by
    rw [hlen, Int.tmod_eq_emod_of_nonneg (by omega)]; push_cast; rfl
  have hdm : (S.length : Int) = ((K * (S.length / K) : Nat) : Int) + ((S.length % K : Nat) : Int) := by
    exact_mod_cast (Nat.div_add_mod S.length K).symm
  have hdm' := Nat.div_add_mod S.length K
  have hend : hi - ((S.length % K : Nat) : Int) = lo + ((K * (S.length / K) : Nat) : Int) := by omega
  have h1 : Adds len (forS lo (lo + ((K * (S.length / K) : Nat) : Int)) K (fun j y => do
      let vy ← (List.range K).mapM fun (l : Nat) => do
        let v ← rd val (j - base + (l : Int))
        some (v * (alpha * xi))
      forC 0 K (fun k y => do
        let c ← rd ind (j + k - base)
        let v ← rd vy k
        addAt y (c - base) v) y))
      (fun k => ∑ i ∈ range (S.length / K), ∑ l ∈ range K,
        segAdd (fun v => v * (alpha * xi)) S (K * i + l) k) := by
    refine adds_forS hK rfl ?_
    intro i hiK
    have hb : K * i + K ≤ K * (S.length / K) := by
      calc K * i + K = K * (i + 1) := by ring
        _ ≤ _ := Nat.mul_le_mul_left _ hiK
    -- the products
    have hvy : ((List.range K).mapM fun (l : Nat) => do
        let v ← rd val (lo + ((K * i : Nat) : Int) - base + (l : Int))
        some (v * (alpha * xi)))
        = some ((List.range K).map fun l => (S.getD (K * i + l) (0, 0)).2 * (alpha * xi)) := by
      apply mapM_range_some
      intro l hl
      obtain ⟨_, e2⟩ := h.2 (K * i + l) (by omega)
      rw [show lo + ((K * i : Nat) : Int) - base + (l : Int) = lo - base + ((K * i + l : Nat) : Int) by
        push_cast; ring, e2]
      simp [List.getD_eq_getElem?_getD, List.getElem?_eq_getElem (show K * i + l < S.length by omega)]
    refine (adds_forC (n := K) (body := fun k y => do
        let c ← rd ind (lo + ((K * i : Nat) : Int) + k - base)
        let v ← rd ((List.range K).map fun l => (S.getD (K * i + l) (0, 0)).2 * (alpha * xi)) k
        addAt y (c - base) v)
        (D := fun l k => segAdd (fun v => v * (alpha * xi)) S (K * i + l) k) ?_).congr ?_
        (fun _ _ => rfl)
    · intro l hl
      have hlt : K * i + l < S.length := by omega
      obtain ⟨e1, _⟩ := h.2 (K * i + l) hlt
      have hrr := hr _ (List.getElem_mem hlt)
      refine (adds_addAt hrr.1 hrr.2 (S[K * i + l].2 * (alpha * xi))).congr ?_ ?_
      · intro y
        rw [show lo + ((K * i : Nat) : Int) + (l : Int) - base = lo - base + ((K * i + l : Nat) : Int)
          by push_cast; ring, e1, rd_ofNat]
        simp [hl, List.getElem?_eq_getElem hlt]
      · intro k _
        rw [segAdd, dif_pos hlt]
    · intro y
      rw [hvy]
      rfl
  have hS : S = S.take (K * (S.length / K)) ++ S.drop (K * (S.length / K)) :=
    (List.take_append_drop _ _).symm
  have hsr : Seg ind val base (lo + ((K * (S.length / K) : Nat) : Int)) hi
      (S.drop (K * (S.length / K))) := by
    rw [hS] at h
    have := h.append_right
    rwa [List.length_take, Nat.min_eq_left (by omega)] at this
  have h2 := adds_seg hsr (len := len) (fun e he => hr e (List.mem_of_mem_drop he))
    (fun v => v * (alpha * xi))
  refine (h1.comp h2).congr ?_ ?_
  · intro y
    unfold csrmvtRow
    simp only [hrem, hend, Option.bind_eq_bind, mul_assoc]
  · intro k _
    rw [← sum_blocks (fun t => segAdd (fun v => v * (alpha * xi)) S t k),
      segAdd_sum (fun v => v * (alpha * xi)) S k,
      segAdd_sum (fun v => v * (alpha * xi)) (S.drop (K * (S.length / K))) k]
    have hsplit : ∑ t ∈ range S.length, segAdd (fun v => v * (alpha * xi)) S t k
        = ∑ t ∈ range (K * (S.length / K) + S.length % K),
            segAdd (fun v => v * (alpha * xi)) S t k := by rw [hdm']
    rw [hsplit, sum_range_add]
    congr 1
    have hl : (S.drop (K * (S.length / K))).length = S.length % K := by
      rw [List.length_drop]; omega
    rw [hl]
    apply sum_congr rfl
    intro t ht
    simp only [mem_range] at ht
    unfold segAdd
    rw [dif_pos (by omega), dif_pos (by omega)]
    simp

/-- the rows handled by thread `tid` -/
theorem tRange (m nthreads tid : Nat) (hn : 0 < nthreads) (ht : tid < nthreads) :
    ((m : Int) * tid).tdiv nthreads = ((m * tid / nthreads : Nat) : Int) ∧
    ((m : Int) * (tid + 1)).tdiv nthreads = ((m * (tid + 1) / nthreads : Nat) : Int) ∧
    m * tid / nthreads ≤ m * (tid + 1) / nthreads ∧ m * (tid + 1) / nthreads ≤ m := by
  refine ⟨?_, ?_, Nat.div_le_div_right (Nat.mul_le_mul_left _ (by omega)), ?_⟩
  · rw [Int.tdiv_eq_ediv_of_nonneg (by positivity)]; push_cast; rfl
  · rw [Int.tdiv_eq_ediv_of_nonneg (by positivity)]; push_cast; rfl
  · exact Nat.div_le_of_le_mul (by rw [Nat.mul_comm]; exact Nat.mul_le_mul_right _ ht)

/-- the private buffer of a thread holds the contributions of its rows -/
theorem csrmvtBuf_spec {K : Nat} (hK : 0 < K) {A : Csr R} (h : A.WF) (alpha : R) {x : List R}
    (hx : A.m ≤ x.length) {nthreads tid : Nat} (hn : 0 < nthreads) (ht : tid < nthreads) :
    ∃ b, csrmvtBuf K A.base alpha A.m A.n A.val A.ind A.ptr x nthreads tid = some b ∧
      Rep b A.n (fun k => ∑ i ∈ Ico (A.m * tid / nthreads) (A.m * (tid + 1) / nthreads),
        tD (AddMonoidHom.id R) A alpha x i k) := by
  obtain ⟨r1, r2, r3, r4⟩ := tRange A.m nthreads tid hn ht
  unfold csrmvtBuf
  simp only [r1, r2]
  have hb : Rep (List.replicate (A.n : Int).toNat (0 : R)) A.n (fun _ => 0) := by
    constructor
    · simp
    · intro k hk; simp [hk]
  have := adds_forC' (len := A.n) (lo := ((A.m * tid / nthreads : Nat) : Int))
    (hi := ((A.m * (tid + 1) / nthreads : Nat) : Int))
    (n := A.m * (tid + 1) / nthreads - A.m * tid / nthreads) (by omega)
    (body := fun i b => do
      let lo ← rd A.ptr i
      let hi ← rd A.ptr (i + 1)
      let xi ← rd x i
      csrmvtRow K A.base alpha A.val A.ind lo hi xi b)
    (D := fun t k => tD (AddMonoidHom.id R) A alpha x (A.m * tid / nthreads + t) k) (by
      intro t htt
      have hi : A.m * tid / nthreads + t < A.m := by omega
      refine (csrmvtRow_adds hK (A.seg_row h hi) (Csr.row_cols h (le_refl A.n)) alpha
        (x.getD (A.m * tid / nthreads + t) 0)).congr ?_ ?_
      · intro y
        have e1 := Csr.WF.rd_ptr h (i := A.m * tid / nthreads + t) (by omega)
        have e2 := Csr.WF.rd_ptr h (i := A.m * tid / nthreads + t + 1) (by omega)
        have e3 := rd_getD_lt (x := x) (i := A.m * tid / nthreads + t) (by omega)
        rw [show ((A.m * tid / nthreads + t : Nat) : Int)
          = ((A.m * tid / nthreads : Nat) : Int) + (t : Int) by push_cast; rfl] at e1 e3
        rw [show ((A.m * tid / nthreads + t + 1 : Nat) : Int)
          = ((A.m * tid / nthreads : Nat) : Int) + (t : Int) + 1 by push_cast; rfl] at e2
        simp only [e1, e2, e3, Option.bind_eq_bind, Option.bind_some]
      · intro k _
        have := tD_sum (cj := AddMonoidHom.id R) (A := A) (alpha := alpha) (x := x)
          (A.m * tid / nthreads + t) k
        simp only [AddMonoidHom.id_apply] at this
        exact this.symm)
  obtain ⟨b, e, r⟩ := this _ _ hb
  refine ⟨b, e, r.congr ?_⟩
  intro k _
  rw [sum_Ico_eq_sum_range, zero_add]

theorem mergeBuf_adds {n len : Nat} (hl : n ≤ len) {b : List R} {g : Nat → R} (hb : Rep b n g) :
    Adds len (fun y => mergeBuf (n : Int) y b) (fun k => if k < n then g k else 0) := by
  refine (adds_forC (n := n) (body := fun i y => do
    let v ← rd b i
    addAt y i v) (D := fun i k => if (k : Int) = (i : Int) then g i else 0) ?_).congr
      (fun _ => rfl) ?_
  · intro i hi
    refine (adds_addAt (i := (i : Int)) (by omega) (by omega) (g i)).congr ?_ (fun _ _ => rfl)
    intro y
    simp only [hb.rd_nat hi, Option.bind_eq_bind, Option.bind_some]
  · intro k _
    simp only [Nat.cast_inj]
    rw [sum_ite_eq]
    simp

/-- splitting the rows over the threads covers every row once -/
theorem sum_threads (f : Nat → R) (m nthreads : Nat) : ∀ (c : Nat), c ≤ nthreads →
    ∑ tid ∈ range c, ∑ i ∈ Ico (m * tid / nthreads) (m * (tid + 1) / nthreads), f i
      = ∑ i ∈ range (m * c / nthreads), f i
  | 0, _ => by simp
  | c + 1, h => by
    rw [sum_range_succ, sum_threads f m nthreads c (by omega), sum_range_add_sum_Ico]
    exact Nat.div_le_div_right (Nat.mul_le_mul_left _ (by omega))

theorem csrmvtKt_adds {K : Nat} (hK : 0 < K) {A : Csr R} (h : A.WF) (alpha : R) {x : List R}
    (hx : A.m ≤ x.length) {len : Nat} (hl : A.n ≤ len) {nthreads : Nat} (hn : 0 < nthreads)
    {order : List Nat} (ho : ∀ t ∈ order, t < nthreads) :
    Adds len (order.foldlM (fun y tid => do
      let b ← csrmvtBuf K A.base alpha A.m A.n A.val A.ind A.ptr x nthreads tid
      mergeBuf A.n y b))
      (fun k => (order.map fun tid => ∑ i ∈ Ico (A.m * tid / nthreads) (A.m * (tid + 1) / nthreads),
        tD (AddMonoidHom.id R) A alpha x i k).sum) := by
  apply adds_foldlM
  intro tid htid
  obtain ⟨b, e, r⟩ := csrmvtBuf_spec hK h alpha hx hn (ho tid htid)
  refine (mergeBuf_adds hl r).congr ?_ ?_
  · intro y
    simp only [e, Option.bind_eq_bind, Option.bind_some]
  · intro k _
    by_cases hk : k < A.n
    · rw [if_pos hk]
    · rw [if_neg hk]
      apply sum_eq_zero
      intro i _
      simp [tD, Csr.mat_zero h i (show A.n ≤ k by omega)]

theorem list_sum_map_range (n : Nat) (f : Nat → R) :
    ((List.range n).map f).sum = ∑ i ∈ range n, f i := by
  induction n with
  | zero => simp
  | succ n ih => rw [List.range_succ, List.map_append, List.sum_append, ih, sum_range_succ]; simp

theorem csrmvtKt_spec {K : Nat} (hK : 0 < K) {A : Csr R} (h : A.WF) (alpha beta : R)
    {x y : List R} (hx : A.m ≤ x.length) (hy : A.n ≤ y.length) {nthreads : Nat}
    (hn : 0 < nthreads) {order : List Nat} (ho : order.Perm (List.range nthreads)) :
    ∃ y', csrmvtKt K A.base alpha A.m A.n A.val A.ind A.ptr x beta y nthreads order = some y' ∧
      IsMv alpha beta (fun i j => A.mat j i) A.n A.m x y y' := by
  have hD : ∀ k, (order.map fun tid =>
      ∑ i ∈ Ico (A.m * tid / nthreads) (A.m * (tid + 1) / nthreads),
        tD (AddMonoidHom.id R) A alpha x i k).sum
      = ∑ i ∈ range A.m, tD (AddMonoidHom.id R) A alpha x i k := by
    intro k
    rw [(ho.map _).sum_eq]
    have := sum_threads (fun i => tD (AddMonoidHom.id R) A alpha x i k) A.m nthreads nthreads
      (le_refl _)
    rw [Nat.mul_div_cancel _ hn] at this
    rw [← this]
    exact list_sum_map_range nthreads _
  refine isMv_of_adds hy (csrmvtKt_adds hK h alpha hx hy hn
    (fun t ht => by simpa using ho.mem_iff.mp ht)) (fun k _ => ?_) ?_
  · rw [hD, tD_total]; rfl
  · intro k hk
    rw [hD]
    apply sum_eq_zero
    intro i _
    simp [tD, Csr.mat_zero h i hk]

end Verif
