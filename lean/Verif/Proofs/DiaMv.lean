/-
Proofs about the DIA matrix-vector kernels.
-/
import Verif.Proofs.Dia
import Verif.Proofs.Adds

namespace Verif
open Model Finset

variable {R : Type}

/-! ### windows -/

/-- zipping three lists given by their elements -/
theorem zip3_map {α β γ δ : Type} (f : α × β → γ → δ) (a : Nat → α) (b : Nat → β) (c : Nat → γ)
    (K : Nat) :
    List.zipWith f (List.zip ((List.range K).map a) ((List.range K).map b)) ((List.range K).map c)
      = (List.range K).map fun l => f (a l, b l) (c l) := by
  apply List.ext_getElem <;> simp

theorem zip2_map {α β δ : Type} (f : α → β → δ) (a : Nat → α) (b : Nat → β) (K : Nat) :
    List.zipWith f ((List.range K).map a) ((List.range K).map b)
      = (List.range K).map fun l => f (a l) (b l) := by
  apply List.ext_getElem <;> simp

theorem replicate_map {α : Type} (v : α) (K : Nat) :
    List.replicate K v = (List.range K).map fun _ => v := by
  apply List.ext_getElem <;> simp

/-- blocks of `K` cells followed by single cells, over `[lo, hi)`: every cell of the window is
updated once -/
theorem blocks_spec {len K : Nat} {a lo hi e : Int} (ha : 0 ≤ a + lo) (hlen : a + hi ≤ len)
    (he : e ≤ hi) {blk one : Int → List R → Option (List R)} (g : Nat → R → R)
    (hblk : ∀ j y f, lo ≤ j → j + K ≤ e → Rep y len f → ∃ y', blk j y = some y' ∧
      Rep y' len (fun k => if a + j ≤ (k : Int) ∧ (k : Int) < a + j + K then g k (f k) else f k))
    (hone : ∀ j y f, lo ≤ j → j < hi → Rep y len f → ∃ y', one j y = some y' ∧
      Rep y' len (fun k => if (k : Int) = a + j then g k (f k) else f k))
    {y : List R} {f : Nat → R} (hy : Rep y len f) :
    ∃ y', ((whileFrom K lo e blk y).bind fun s => forC s.1 hi one s.2) = some y' ∧
      Rep y' len (fun k => if a + lo ≤ (k : Int) ∧ (k : Int) < a + hi then g k (f k) else f k) := by
  obtain ⟨i, s, e1, hs, hi1, hi2, hi3⟩ := whileFrom_inv (K := K) (lo := lo) (e := e) (f := blk) (s := y)
    (P := fun j s => Rep s len (fun k => if a + lo ≤ (k : Int) ∧ (k : Int) < a + j then g k (f k) else f k))
    (hy.congr (fun k _ => by rw [if_neg (by omega)])) (by
      intro j s h1 h2 hs
      obtain ⟨y', e1, e2⟩ := hblk j s _ h1 h2 hs
      refine ⟨y', e1, e2.congr (fun k _ => ?_)⟩
      by_cases hc : a + j ≤ (k : Int) ∧ (k : Int) < a + j + K
      · rw [if_pos hc, if_neg (by omega), if_pos (by omega)]
      · rw [if_neg hc]
        by_cases hd : a + lo ≤ (k : Int) ∧ (k : Int) < a + j
        · rw [if_pos hd, if_pos (by omega)]
        · rw [if_neg hd, if_neg (by omega)])
  rw [e1, Option.bind_some]
  by_cases hlt : i ≤ hi
  · obtain ⟨y', e2, hr⟩ := forC_inv (lo := i) (hi := hi) (f := one) (s := s)
      (P := fun j s => Rep s len
        (fun k => if a + lo ≤ (k : Int) ∧ (k : Int) < a + j then g k (f k) else f k)) hlt hs (by
        intro j s h1 h2 hs
        obtain ⟨y', e1, e2⟩ := hone j s _ (by omega) h2 hs
        refine ⟨y', e1, e2.congr (fun k _ => ?_)⟩
        by_cases hc : (k : Int) = a + j
        · rw [if_pos hc, if_neg (by omega), if_pos (by omega)]
        · rw [if_neg hc]
          by_cases hd : a + lo ≤ (k : Int) ∧ (k : Int) < a + j
          · rw [if_pos hd, if_pos (by omega)]
          · rw [if_neg hd, if_neg (by omega)])
    exact ⟨y', e2, hr⟩
  · have : i = lo := by
      by_cases h : lo ≤ e
      · have := hi2 h; omega
      · exact hi3 (by omega)
    refine ⟨s, by rw [forC_ge (by omega)], hs.congr (fun k _ => ?_)⟩
    rw [if_neg (by omega), if_neg (by omega)]

/-- the additive version -/
theorem adds_blocks [AddCommMonoid R] {len K : Nat} {a num : Int} (ha : 0 ≤ a)
    (hlen : a + num ≤ len) {blk one : Int → List R → Option (List R)} (D : Nat → R)
    (hblk : ∀ j y f, 0 ≤ j → j + K ≤ num → Rep y len f → ∃ y', blk j y = some y' ∧
      Rep y' len (fun k => if a + j ≤ (k : Int) ∧ (k : Int) < a + j + K then f k + D k else f k))
    (hone : ∀ j y f, 0 ≤ j → j < num → Rep y len f → ∃ y', one j y = some y' ∧
      Rep y' len (fun k => if (k : Int) = a + j then f k + D k else f k)) :
    Adds len (fun y => (whileFrom K 0 num blk y).bind fun s => forC s.1 num one s.2)
      (fun k => if a ≤ (k : Int) ∧ (k : Int) < a + num then D k else 0) := by
  intro y f hy
  obtain ⟨y', e, hr⟩ := blocks_spec (K := K) (lo := 0) (e := num) (by omega) hlen (le_refl _)
    (fun k v => v + D k) hblk hone hy
  refine ⟨y', e, hr.congr (fun k _ => ?_)⟩
  simp only [add_zero]
  by_cases hc : a ≤ (k : Int) ∧ (k : Int) < a + num
  · rw [if_pos hc, if_pos hc]
  · rw [if_neg hc, if_neg hc, add_zero]

theorem adds_window [AddCommMonoid R] {len : Nat} {a num : Int} (ha : 0 ≤ a)
    (hlen : a + num ≤ len) {one : Int → List R → Option (List R)} (D : Nat → R)
    (hone : ∀ j y f, 0 ≤ j → j < num → Rep y len f → ∃ y', one j y = some y' ∧
      Rep y' len (fun k => if (k : Int) = a + j then f k + D k else f k)) :
    Adds len (forC 0 num one)
      (fun k => if a ≤ (k : Int) ∧ (k : Int) < a + num then D k else 0) := by
  intro y f hy
  by_cases hn : 0 ≤ num
  · obtain ⟨y', e2, hr⟩ := forC_inv (lo := 0) (hi := num) (f := one) (s := y)
      (P := fun j s => Rep s len
        (fun k => f k + if a ≤ (k : Int) ∧ (k : Int) < a + j then D k else 0)) hn
      (hy.congr (fun k _ => by rw [if_neg (by omega), add_zero])) (by
        intro j s h1 h2 hs
        obtain ⟨y', e1, e2⟩ := hone j s _ (by omega) h2 hs
        refine ⟨y', e1, e2.congr (fun k _ => ?_)⟩
        by_cases hc : (k : Int) = a + j
        · rw [if_pos hc, if_neg (by omega), if_pos (by omega), add_zero]
        · rw [if_neg hc]
          by_cases hd : a ≤ (k : Int) ∧ (k : Int) < a + j
          · rw [if_pos hd, if_pos (by omega)]
          · rw [if_neg hd, if_neg (by omega)])
    exact ⟨y', e2, hr⟩
  · refine ⟨y, by rw [forC_ge (by omega)], hy.congr (fun k _ => ?_)⟩
    beta_reduce
    rw [if_neg (by omega), add_zero]

theorem addAt_win [AddCommMonoid R] {len : Nat} {i : Int} (h0 : 0 ≤ i) (h1 : i < len) {v : R}
    {D : Nat → R} (hv : D i.toNat = v) {y : List R} {f : Nat → R} (hy : Rep y len f) :
    ∃ y', addAt y i v = some y' ∧
      Rep y' len (fun k => if (k : Int) = i then f k + D k else f k) := by
  obtain ⟨y', e, r⟩ := adds_addAt h0 h1 v y f hy
  refine ⟨y', e, r.congr (fun k _ => ?_)⟩
  beta_reduce
  by_cases hk : (k : Int) = i
  · rw [if_pos hk, if_pos hk, ← hv]
    congr 2
    omega
  · rw [if_neg hk, if_neg hk, add_zero]

/-- scaling (however done) followed by an additive computation -/
theorem isMv_of_scaled [Semiring R] {alpha beta : R} {M : Mat R} {m n : Nat}
    {x y y1 : List R} {body : List R → Option (List R)} {D : Nat → R} (hm : m ≤ y.length)
    (hy1 : Rep y1 y.length (fun k => if k < m then beta * y.getD k 0 else y.getD k 0))
    (h : Adds y.length body D) (hD : ∀ k, k < m → D k = alpha * matVec M n x k)
    (hD0 : ∀ k, m ≤ k → D k = 0) :
    ∃ y', body y1 = some y' ∧ IsMv alpha beta M m n x y y' := by
  obtain ⟨y2, e2, r2⟩ := h y1 _ hy1
  refine ⟨y2, e2, r2.1, ?_, ?_⟩
  · intro i hi
    rw [r2.2 i (by omega)]
    simp only [if_pos hi, hD i hi]
    rw [add_comm]
  · intro i hi
    by_cases hl : i < y.length
    · rw [r2.2 i hl]
      beta_reduce
      rw [if_neg (by omega), hD0 i hi, add_zero]
      simp [hl]
    · rw [List.getElem?_eq_none (by rw [r2.1]; omega), List.getElem?_eq_none (by omega)]

/-- rows computed one by one (in any grouping) -/
theorem isMv_of_rows [Semiring R] {alpha beta : R} {M : Mat R} {m n : Nat}
    {x y y' : List R} (hm : m ≤ y.length)
    (h : Rep y' y.length (fun k => if k < m then alpha * matVec M n x k + beta * y.getD k 0
      else y.getD k 0)) : IsMv alpha beta M m n x y y' := by
  refine ⟨h.1, ?_, ?_⟩
  · intro i hi
    rw [h.2 i (by omega)]
    beta_reduce
    rw [if_pos hi]
  · intro i hi
    by_cases hl : i < y.length
    · rw [h.2 i hl]
      beta_reduce
      rw [if_neg (by omega)]
      simp [hl]
    · rw [List.getElem?_eq_none (by rw [h.1]; omega), List.getElem?_eq_none (by omega)]

/-! ### the DIA matrix -/

section
variable [CommSemiring R]

/-- contribution of diagonal `d` to row `i` -/
def diaTerm (m n : Nat) (off : List Int) (dval x : List R) (d i : Nat) : R :=
  if 0 ≤ (i : Int) + off.getD d 0 ∧ (i : Int) + off.getD d 0 < n then
    dval.getD (i + m * d) 0 * x.getD ((i : Int) + off.getD d 0).toNat 0 else 0

theorem matVec_dia (m n nd : Nat) (off : List Int) (dval x : List R) (i : Nat) :
    matVec (diaMat m nd off dval) n x i = ∑ d ∈ range nd, diaTerm m n off dval x d i := by
  unfold matVec diaMat
  simp only [sum_mul]
  rw [sum_comm]
  apply sum_congr rfl
  intro d _
  unfold diaTerm
  by_cases hc : 0 ≤ (i : Int) + off.getD d 0 ∧ (i : Int) + off.getD d 0 < n
  · rw [if_pos hc, sum_eq_single ((i : Int) + off.getD d 0).toNat]
    · rw [if_pos (by omega)]
    · intro j _ hj
      rw [if_neg (by omega), zero_mul]
    · intro hj
      exact absurd (mem_range.2 (by omega)) hj
  · rw [if_neg hc]
    apply sum_eq_zero
    intro j hj
    have := mem_range.1 hj
    rw [if_neg (by omega), zero_mul]

variable [DecidableEq R] {m n nd : Nat} {off : List Int} {dval x : List R} {alpha beta : R}

omit [CommSemiring R] [DecidableEq R] in
theorem rd_dval [Zero R] (hdv : m * nd ≤ dval.length) {d i : Nat} (hd : d < nd) (hi : i < m) {p : Int}
    (hp : p = (i : Int) + m * d) : rd dval p = some (dval.getD (i + m * d) 0) := by
  have h2 : m * (d + 1) ≤ m * nd := Nat.mul_le_mul_left m hd
  rw [Nat.mul_succ] at h2
  subst hp
  rw [show (i : Int) + m * d = ((i + m * d : Nat) : Int) by push_cast; rfl, rd_ofNat]
  simp [show i + m * d < dval.length by omega]

theorem diaRefDiag_adds {len : Nat} (hm : m ≤ len) (hx : n ≤ x.length) (hoff : nd ≤ off.length)
    (hdv : m * nd ≤ dval.length) {d : Nat} (hd : d < nd) :
    Adds len (diaRefDiag alpha m n dval off x (d : Int))
      (fun k => if k < m then alpha * diaTerm m n off dval x d k else 0) := by
  have e : rd off (d : Int) = some (off.getD d 0) := by
    rw [rd_ofNat]; simp [show d < off.length by omega]
  refine (adds_window (len := len) (a := max 0 (-off.getD d 0))
    (num := min ((m : Int) - max 0 (-off.getD d 0)) ((n : Int) - max 0 (off.getD d 0)))
    (one := fun j y => do
      let v ← rd dval (max 0 (-off.getD d 0) + (d : Int) * m + j)
      let xv ← rd x (j + max 0 (off.getD d 0))
      addAt y (max 0 (-off.getD d 0) + j) (alpha * v * xv))
    (by omega) (by omega) (fun k => alpha * diaTerm m n off dval x d k) ?_).congr
    (fun y => by unfold diaRefDiag; rw [e]; rfl) ?_
  · intro j y f h0 h1 hy
    obtain ⟨i, hi⟩ : ∃ i : Nat, (i : Int) = max 0 (-off.getD d 0) + j :=
      ⟨(max 0 (-off.getD d 0) + j).toNat, by omega⟩
    have him : i < m := by omega
    rw [rd_dval hdv hd him (by rw [mul_comm]; omega)]
    have e2 : rd x (j + max 0 (off.getD d 0)) = some (x.getD ((i : Int) + off.getD d 0).toNat 0) := by
      rw [show j + max 0 (off.getD d 0) = (i : Int) + off.getD d 0 by omega]
      exact (Rep.of_list x 0).rd (by omega) (by omega)
    simp only [e2, Option.bind_eq_bind, Option.bind_some, ← hi]
    refine addAt_win (by omega) (by omega) ?_ hy
    unfold diaTerm
    rw [Int.toNat_natCast, if_pos (by omega), mul_assoc]
  · intro k _
    unfold diaTerm
    by_cases hkm : k < m
    · rw [if_pos hkm]
      by_cases hc : 0 ≤ (k : Int) + off.getD d 0 ∧ (k : Int) + off.getD d 0 < n
      · rw [if_pos hc, if_pos (by omega)]
      · rw [if_neg hc, if_neg (by omega), mul_zero]
    · rw [if_neg hkm, if_neg (by omega)]

theorem dia_D (k : Nat) (hk : k < m) :
    (∑ d ∈ range nd, if k < m then alpha * diaTerm m n off dval x d k else 0)
      = alpha * matVec (diaMat m nd off dval) n x k := by
  rw [matVec_dia, mul_sum]
  simp [hk]

theorem diamvRef_spec {y : List R} (hm : m ≤ y.length) (hx : n ≤ x.length)
    (hoff : nd ≤ off.length) (hdv : m * nd ≤ dval.length) :
    ∃ y', diamvRef alpha m n dval off nd x beta y = some y' ∧
      IsMv alpha beta (diaMat m nd off dval) m n x y y' := by
  unfold diamvRef
  have hadd := adds_forC (len := y.length) (n := nd) (fun d hd =>
    diaRefDiag_adds (alpha := alpha) hm hx hoff hdv hd)
  refine isMv_of_adds hm hadd (fun k hk => dia_D k hk) (fun k hk => ?_)
  simp [show ¬ k < m by omega]

/-! ### diagonal-major kernel -/

theorem diaVecDiag_spec {len K : Nat} (hm : m ≤ len) (hx : n ≤ x.length)
    (hdv : m * nd ≤ dval.length) {d : Nat} (hd : d < nd) {j : Int} {y : List R} {f : Nat → R}
    (h0 : 0 ≤ j)
    (h1 : j + K ≤ min ((m : Int) - max 0 (-off.getD d 0)) ((n : Int) - max 0 (off.getD d 0)))
    (hy : Rep y len f) :
    ∃ y', diaVecDiag K alpha dval x (max 0 (-off.getD d 0) + (d : Int) * m) (max 0 (off.getD d 0))
        (max 0 (-off.getD d 0)) j y = some y' ∧
      Rep y' len (fun k => if max 0 (-off.getD d 0) + j ≤ (k : Int) ∧
        (k : Int) < max 0 (-off.getD d 0) + j + K then f k + alpha * diaTerm m n off dval x d k
        else f k) := by
  have h2 : m * (d + 1) ≤ m * nd := Nat.mul_le_mul_left m hd
  rw [Nat.mul_succ] at h2
  have hdm : (d : Int) * m = ((m * d : Nat) : Int) := by push_cast; rw [mul_comm]
  unfold diaVecDiag
  rw [hdm, vload_rep (Rep.of_list dval 0) (by omega) (by omega),
    vload_rep (Rep.of_list x 0) (by omega) (by omega), vload_rep hy (by omega) (by omega)]
  simp only [Option.bind_eq_bind, Option.bind_some, List.map_map, zip3_map]
  obtain ⟨b, hb, hr⟩ := vstore_rep hy (p := max 0 (-off.getD d 0) + j) (K := K)
    (fun l => ((fun v => v * alpha) ∘ fun l => dval.getD ((max 0 (-off.getD d 0) + ((m * d : Nat) : Int) + j).toNat + l) 0) l
      * x.getD ((max 0 (off.getD d 0) + j).toNat + l) 0 + f ((max 0 (-off.getD d 0) + j).toNat + l))
    (by omega) (by omega)
  refine ⟨b, hb, hr.congr (fun k hk => ?_)⟩
  by_cases hc : max 0 (-off.getD d 0) + j ≤ (k : Int) ∧ (k : Int) < max 0 (-off.getD d 0) + j + K
  · rw [if_pos hc, if_pos hc]
    unfold diaTerm
    rw [if_pos (by omega)]
    simp only [Function.comp]
    rw [show (max 0 (-off.getD d 0) + ((m * d : Nat) : Int) + j).toNat
        + (k - (max 0 (-off.getD d 0) + j).toNat) = k + m * d by omega,
      show (max 0 (off.getD d 0) + j).toNat + (k - (max 0 (-off.getD d 0) + j).toNat)
        = ((k : Int) + off.getD d 0).toNat by omega,
      show (max 0 (-off.getD d 0) + j).toNat + (k - (max 0 (-off.getD d 0) + j).toNat) = k by omega,
      add_comm, mul_comm _ alpha, mul_assoc]
  · rw [if_neg hc, if_neg hc]

theorem diaKtDiag_adds {len K : Nat} (hm : m ≤ len) (hx : n ≤ x.length) (hoff : nd ≤ off.length)
    (hdv : m * nd ≤ dval.length) {d : Nat} (hd : d < nd) :
    Adds len (diaKtDiag K alpha m n dval off x (d : Int))
      (fun k => if k < m then alpha * diaTerm m n off dval x d k else 0) := by
  have e : rd off (d : Int) = some (off.getD d 0) := by
    rw [rd_ofNat]; simp [show d < off.length by omega]
  have hDk : ∀ k, (if k < m then alpha * diaTerm m n off dval x d k else 0)
      = if max 0 (-off.getD d 0) ≤ (k : Int) ∧ (k : Int) < max 0 (-off.getD d 0)
          + min ((m : Int) - max 0 (-off.getD d 0)) ((n : Int) - max 0 (off.getD d 0))
        then alpha * diaTerm m n off dval x d k else 0 := by
    intro k
    unfold diaTerm
    by_cases hkm : k < m
    · rw [if_pos hkm]
      by_cases hc : 0 ≤ (k : Int) + off.getD d 0 ∧ (k : Int) + off.getD d 0 < n
      · rw [if_pos hc, if_pos (by omega)]
      · rw [if_neg hc, if_neg (by omega), mul_zero]
    · rw [if_neg hkm, if_neg (by omega)]
  by_cases hneg : min ((m : Int) - max 0 (-off.getD d 0)) ((n : Int) - max 0 (off.getD d 0)) ≤ 0
  · refine (adds_id len).congr (fun y => ?_) (fun k _ => ?_)
    · unfold diaKtDiag
      simp only [e, Option.bind_eq_bind, Option.bind_some, if_pos hneg]
    · rw [hDk k, if_neg (by omega)]
  · refine (adds_blocks (len := len) (K := K) (a := max 0 (-off.getD d 0))
      (num := min ((m : Int) - max 0 (-off.getD d 0)) ((n : Int) - max 0 (off.getD d 0)))
      (blk := diaVecDiag K alpha dval x (max 0 (-off.getD d 0) + (d : Int) * m)
        (max 0 (off.getD d 0)) (max 0 (-off.getD d 0)))
      (one := fun j y => do
        let v ← rd dval (max 0 (-off.getD d 0) + (d : Int) * m + j)
        let xv ← rd x (max 0 (off.getD d 0) + j)
        addAt y (max 0 (-off.getD d 0) + j) (alpha * v * xv))
      (by omega) (by omega) (fun k => alpha * diaTerm m n off dval x d k) ?_ ?_).congr ?_ ?_
    · intro j y f h0 h1 hy
      exact diaVecDiag_spec hm hx hdv hd h0 h1 hy
    · intro j y f h0 h1 hy
      obtain ⟨i, hi⟩ : ∃ i : Nat, (i : Int) = max 0 (-off.getD d 0) + j :=
        ⟨(max 0 (-off.getD d 0) + j).toNat, by omega⟩
      have him : i < m := by omega
      rw [rd_dval hdv hd him (by rw [mul_comm]; omega)]
      have e2 : rd x (max 0 (off.getD d 0) + j)
          = some (x.getD ((i : Int) + off.getD d 0).toNat 0) := by
        rw [show max 0 (off.getD d 0) + j = (i : Int) + off.getD d 0 by omega]
        exact (Rep.of_list x 0).rd (by omega) (by omega)
      simp only [e2, Option.bind_eq_bind, Option.bind_some, ← hi]
      refine addAt_win (by omega) (by omega) ?_ hy
      unfold diaTerm
      rw [Int.toNat_natCast, if_pos (by omega), mul_assoc]
    · intro y
      unfold diaKtDiag
      simp only [e, Option.bind_eq_bind, Option.bind_some, if_neg hneg]
    · intro k _
      exact hDk k

theorem diaScale_spec {K : Nat} {y : List R} (hm : m ≤ y.length) :
    ∃ y', diaScale K (m : Int) beta y = some y' ∧
      Rep y' y.length (fun k => if k < m then beta * y.getD k 0 else y.getD k 0) := by
  have hy := Rep.of_list y (0 : R)
  unfold diaScale
  by_cases h0 : beta = 0
  · rw [if_pos h0]
    obtain ⟨y', e, hr⟩ := blocks_spec (len := y.length) (K := K) (a := 0) (lo := 0) (hi := m)
      (e := m) (by omega) (by omega) (le_refl _)
      (blk := fun i y => vstore y i (List.replicate K 0)) (one := fun i y => wr y i 0)
      (fun _ _ => (0 : R)) (by
        intro j y f h1 h2 hy
        rw [replicate_map]
        obtain ⟨b, hb, hr⟩ := vstore_rep hy (p := j) (K := K) (fun _ => (0 : R)) h1 (by omega)
        exact ⟨b, hb, by simpa using hr⟩) (by
        intro j y f h1 h2 hy
        obtain ⟨b, hb, hr⟩ := hy.wr (i := j) 0 h1 (by omega)
        refine ⟨b, hb, hr.congr (fun k _ => ?_)⟩
        by_cases hk : k = j.toNat
        · rw [hk, Function.update_self, if_pos (by omega)]
        · rw [Function.update_of_ne hk, if_neg (by omega)]) hy
    refine ⟨y', e, hr.congr (fun k _ => ?_)⟩
    by_cases hk : k < m
    · rw [if_pos hk, if_pos (by omega), h0, zero_mul]
    · rw [if_neg hk, if_neg (by omega)]
  · rw [if_neg h0]
    by_cases h1 : beta = 1
    · rw [if_neg (by simp [h1])]
      exact ⟨y, rfl, hy.congr (fun k _ => by simp [h1])⟩
    · rw [if_pos h1]
      obtain ⟨y', e, hr⟩ := blocks_spec (len := y.length) (K := K) (a := 0) (lo := 0) (hi := m)
        (e := m) (by omega) (by omega) (le_refl _)
        (blk := fun i y => do
          let yv ← vload y i K
          vstore y i (yv.map fun v => v * beta))
        (one := fun i y => do
          let v ← rd y i
          wr y i (v * beta))
        (fun _ v => v * beta) (by
          intro j y f h1 h2 hy
          rw [vload_rep hy h1 (by omega)]
          simp only [Option.bind_eq_bind, Option.bind_some, List.map_map]
          obtain ⟨b, hb, hr⟩ := vstore_rep hy (p := j) (K := K)
            ((fun v => v * beta) ∘ fun l => f (j.toNat + l)) h1 (by omega)
          refine ⟨b, hb, hr.congr (fun k _ => ?_)⟩
          simp only [zero_add, Function.comp]
          by_cases hk : j ≤ (k : Int) ∧ (k : Int) < j + K
          · rw [if_pos hk, if_pos hk, show j.toNat + (k - j.toNat) = k by omega]
          · rw [if_neg hk, if_neg hk]) (by
          intro j y f h1 h2 hy
          rw [hy.rd h1 (by omega)]
          simp only [Option.bind_eq_bind, Option.bind_some]
          obtain ⟨b, hb, hr⟩ := hy.wr (i := j) (f j.toNat * beta) h1 (by omega)
          refine ⟨b, hb, hr.congr (fun k _ => ?_)⟩
          by_cases hk : k = j.toNat
          · rw [hk, Function.update_self, if_pos (by omega)]
          · rw [Function.update_of_ne hk, if_neg (by omega)]) hy
      refine ⟨y', e, hr.congr (fun k _ => ?_)⟩
      by_cases hk : k < m
      · rw [if_pos hk, if_pos (by omega), mul_comm]
      · rw [if_neg hk, if_neg (by omega)]

theorem diamvDiagmaj_spec {K : Nat} {y : List R} (hm : m ≤ y.length) (hx : n ≤ x.length)
    (hoff : nd ≤ off.length) (hdv : m * nd ≤ dval.length) :
    ∃ y', diamvDiagmaj K alpha m n dval off nd x beta y = some y' ∧
      IsMv alpha beta (diaMat m nd off dval) m n x y y' := by
  unfold diamvDiagmaj
  have hadd := adds_forC (len := y.length) (n := nd) (fun d hd =>
    diaKtDiag_adds (K := K) (alpha := alpha) hm hx hoff hdv hd)
  obtain ⟨y1, e1, r1⟩ := diaScale_spec (K := K) (beta := beta) hm
  obtain ⟨y2, e2, r2⟩ := isMv_of_scaled hm r1 hadd (fun k hk => dia_D k hk)
    (fun k hk => by simp [show ¬ k < m by omega])
  exact ⟨y2, by rw [e1, Option.bind_some, e2], r2⟩

/-! ### row-major kernel -/

/-- the band in which every diagonal is inside the matrix -/
structure DiaBand (m n nd : Nat) (off : List Int) (rb re : Int) : Prop where
  rb0 : 0 ≤ rb
  rem : re ≤ m
  lo : ∀ d, d < nd → -off.getD d 0 ≤ rb
  hi : ∀ d, d < nd → 0 < re → re + off.getD d 0 ≤ n

theorem diaHeuristic_spec (hoff : nd ≤ off.length) :
    ∃ h, diaHeuristic m n off nd = some h ∧ DiaBand m n nd off h.2.1 h.2.2 := by
  unfold diaHeuristic
  by_cases h0 : (nd : Int) = 0
  · rw [if_pos h0]
    exact ⟨_, rfl, le_refl _, le_refl _, fun d hd => by omega, fun d hd => by omega⟩
  · rw [if_neg h0]
    have e : rd off 0 = some (off.getD 0 0) := by
      rw [show (0 : Int) = ((0 : Nat) : Int) by rfl, rd_ofNat]
      simp [show 0 < off.length by omega]
    obtain ⟨mm, e1, h1⟩ := forC_inv (lo := 1) (hi := nd) (s := (off.getD 0 0, off.getD 0 0))
      (f := fun j (s : Int × Int) => do
        let o ← rd off j
        some (min s.1 o, max s.2 o))
      (P := fun j s => ∀ d : Nat, (d : Int) < j → s.1 ≤ off.getD d 0 ∧ off.getD d 0 ≤ s.2)
      (by omega) (by
        intro d hd
        have : d = 0 := by omega
        subst this
        exact ⟨le_refl _, le_refl _⟩) (by
        intro j s hj1 hj2 hs
        obtain ⟨t, rfl⟩ : ∃ t : Nat, j = t := ⟨j.toNat, by omega⟩
        have e : rd off (t : Int) = some (off.getD t 0) := by
          rw [rd_ofNat]; simp [show t < off.length by omega]
        rw [e]
        refine ⟨_, rfl, fun d hd => ?_⟩
        by_cases hdt : d = t
        · subst hdt; exact ⟨min_le_right _ _, le_max_right _ _⟩
        · have := hs d (by omega)
          exact ⟨le_trans (min_le_left _ _) this.1, le_trans this.2 (le_max_left _ _)⟩)
    simp only [Option.bind_eq_bind] at e1
    simp only [Option.bind_eq_bind, e, e1, Option.bind_some]
    refine ⟨_, rfl, by simp only; omega, by simp only; omega, ?_, ?_⟩
    · intro d hd
      have := h1 d (by omega)
      simp only
      omega
    · intro d hd hpos
      have := h1 d (by omega)
      simp only at hpos ⊢
      omega

theorem diaStore_eq (r yi : R) : (if beta = 0 then r else if beta = 1 then yi + r else yi * beta + r)
    = r + beta * yi := by
  by_cases h0 : beta = 0
  · simp [h0]
  · by_cases h1 : beta = 1
    · rw [if_neg h0, if_pos h1, h1, one_mul, add_comm]
    · rw [if_neg h0, if_neg h1, add_comm, mul_comm]

theorem diaScalarRow_spec {len : Nat} (hm : m ≤ len) (hx : n ≤ x.length) (hoff : nd ≤ off.length)
    (hdv : m * nd ≤ dval.length) {i : Nat} (hi : i < m) {y : List R} {f : Nat → R}
    (hy : Rep y len f) :
    ∃ y', diaScalarRow alpha beta m n dval off nd x (i : Int) y = some y' ∧
      Rep y' len (Function.update f i
        (alpha * matVec (diaMat m nd off dval) n x i + beta * f i)) := by
  unfold diaScalarRow
  obtain ⟨s, e1, h1⟩ := forC_inv_nat (n := nd) (s := (0 : R))
    (f := fun j s => do
      let o ← rd off j
      let col := (i : Int) + o
      if 0 ≤ col ∧ col < n then do
        let v ← rd dval (j * m + i)
        let xv ← rd x col
        some (s + v * xv)
      else some s)
    (P := fun j s => s = ∑ d ∈ range j, diaTerm m n off dval x d i) (by simp) (by
      intro d s hd hs
      have e : rd off (d : Int) = some (off.getD d 0) := by
        rw [rd_ofNat]; simp [show d < off.length by omega]
      simp only [e, Option.bind_eq_bind, Option.bind_some, sum_range_succ, ← hs]
      unfold diaTerm
      by_cases hc : 0 ≤ (i : Int) + off.getD d 0 ∧ (i : Int) + off.getD d 0 < n
      · rw [if_pos hc, if_pos hc, rd_dval hdv hd hi (by rw [mul_comm, add_comm])]
        have e2 : rd x ((i : Int) + off.getD d 0) = some (x.getD ((i : Int) + off.getD d 0).toNat 0) :=
          (Rep.of_list x 0).rd (by omega) (by omega)
        rw [e2]
        exact ⟨_, rfl, rfl⟩
      · rw [if_neg hc, if_neg hc, add_zero]
        exact ⟨_, rfl, rfl⟩)
  simp only [Option.bind_eq_bind] at e1
  simp only [Option.bind_eq_bind, e1, Option.bind_some, hy.rd_nat (show i < len by omega)]
  rw [diaStore_eq, h1, ← matVec_dia]
  exact hy.wr_nat _ (by omega)

theorem diaVecRow_spec {len K : Nat} (hK : 0 < K) (hm : m ≤ len) (hx : n ≤ x.length)
    (hoff : nd ≤ off.length) (hdv : m * nd ≤ dval.length) {rb re : Int}
    (hb : DiaBand m n nd off rb re) {i : Int} (h1 : rb ≤ i) (h2 : i + K ≤ re) {y : List R}
    {f : Nat → R} (hy : Rep y len f) :
    ∃ y', diaVecRow K alpha beta m dval off nd x i y = some y' ∧
      Rep y' len (fun k => if i ≤ (k : Int) ∧ (k : Int) < i + K then
        alpha * matVec (diaMat m nd off dval) n x k + beta * f k else f k) := by
  have hrb := hb.rb0
  have hre := hb.rem
  unfold diaVecRow
  obtain ⟨s, e1, hs⟩ := forC_inv_nat (n := nd) (s := List.replicate K (0 : R))
    (f := fun j s => do
      let o ← rd off j
      let v ← vload dval (j * m + i) K
      let xv ← vload x (i + o) K
      some (List.zipWith (fun ab c => ab.1 * ab.2 + c) (List.zip v xv) s))
    (P := fun j s => s = (List.range K).map fun l =>
      ∑ d ∈ range j, diaTerm m n off dval x d (i.toNat + l)) (by rw [replicate_map]; simp) (by
      intro d s hd hs
      have e : rd off (d : Int) = some (off.getD d 0) := by
        rw [rd_ofNat]; simp [show d < off.length by omega]
      have h3 := hb.lo d hd
      have h4 := hb.hi d hd (by omega)
      have h5 : m * (d + 1) ≤ m * nd := Nat.mul_le_mul_left m hd
      rw [Nat.mul_succ] at h5
      have hdm : (d : Int) * m = ((m * d : Nat) : Int) := by push_cast; rw [mul_comm]
      rw [e, hdm, vload_rep (Rep.of_list dval 0) (by omega) (by omega)]
      simp only [Option.bind_eq_bind, Option.bind_some]
      rw [vload_rep (Rep.of_list x 0) (by omega) (by omega)]
      simp only [Option.bind_some]
      refine ⟨_, rfl, ?_⟩
      rw [hs, zip3_map]
      apply List.map_congr_left
      intro l hl
      have hl : l < K := by simpa using hl
      rw [sum_range_succ, add_comm]
      congr 1
      unfold diaTerm
      rw [if_pos (by omega), show (((m * d : Nat) : Int) + i).toNat + l = i.toNat + l + m * d by omega,
        show (((i.toNat + l : Nat) : Int) + off.getD d 0).toNat = (i + off.getD d 0).toNat + l by omega])
  simp only [Option.bind_eq_bind] at e1
  simp only [Option.bind_eq_bind, e1, Option.bind_some]
  rw [vload_rep hy (by omega) (by omega)]
  simp only [Option.bind_some]
  have hst : (if beta = 0 then s.map fun s => s * alpha else if beta = 1 then
      List.zipWith (· + ·) ((List.range K).map fun l => f (i.toNat + l)) (s.map fun s => s * alpha)
      else List.zipWith (fun yi ri => yi * beta + ri) ((List.range K).map fun l => f (i.toNat + l))
        (s.map fun s => s * alpha))
      = (List.range K).map fun l => alpha * matVec (diaMat m nd off dval) n x (i.toNat + l)
          + beta * f (i.toNat + l) := by
    rw [hs, List.map_map, zip2_map, zip2_map]
    by_cases h0 : beta = 0
    · rw [if_pos h0]
      apply List.map_congr_left
      intro l _
      simp only [Function.comp]
      rw [h0, zero_mul, add_zero, matVec_dia, mul_comm]
    · by_cases h1 : beta = 1
      · rw [if_neg h0, if_pos h1]
        apply List.map_congr_left
        intro l _
        simp only [Function.comp]
        rw [h1, one_mul, matVec_dia, mul_comm alpha, add_comm]
      · rw [if_neg h0, if_neg h1]
        apply List.map_congr_left
        intro l _
        simp only [Function.comp]
        rw [matVec_dia, mul_comm alpha, add_comm, mul_comm beta]
  rw [hst]
  obtain ⟨b, hb1, hb2⟩ := vstore_rep hy (p := i) (K := K)
    (fun l => alpha * matVec (diaMat m nd off dval) n x (i.toNat + l) + beta * f (i.toNat + l))
    (by omega) (by omega)
  refine ⟨b, hb1, hb2.congr (fun k _ => ?_)⟩
  by_cases hc : i ≤ (k : Int) ∧ (k : Int) < i + K
  · rw [if_pos hc, if_pos hc, show i.toNat + (k - i.toNat) = k by omega]
  · rw [if_neg hc, if_neg hc]

theorem diamvRowmaj_spec {K : Nat} (hK : 0 < K) {y : List R} (hm : m ≤ y.length)
    (hx : n ≤ x.length) (hoff : nd ≤ off.length) (hdv : m * nd ≤ dval.length) {rb re : Int}
    (hb : DiaBand m n nd off rb re) :
    ∃ y', diamvRowmaj K alpha m n dval off nd rb re x beta y = some y' ∧
      IsMv alpha beta (diaMat m nd off dval) m n x y y' := by
  have hrb := hb.rb0
  have hre := hb.rem
  have hone : ∀ (i : Nat) y' (f : Nat → R), i < m → Rep y' y.length f → ∃ y'',
      diaScalarRow alpha beta m n dval off nd x (i : Int) y' = some y'' ∧ Rep y'' y.length
        (Function.update f i ((fun k v => alpha * matVec (diaMat m nd off dval) n x k + beta * v) i (f i))) :=
    fun i y' f hi hy => diaScalarRow_spec hm hx hoff hdv hi hy
  unfold diamvRowmaj
  obtain ⟨r, hr⟩ : ∃ r : Nat, (r : Int) = min rb m := ⟨(min rb m).toNat, by omega⟩
  obtain ⟨y1, e1, r1⟩ := rows_spec (m := r) (Rep.of_list y 0) (by omega)
    (fun k v => alpha * matVec (diaMat m nd off dval) n x k + beta * v) _
    (fun i y' f hi hy => hone i y' f (by omega) hy)
  rw [hr] at e1
  simp only [Option.bind_eq_bind, e1, Option.bind_some]
  obtain ⟨y2, e2, r2⟩ := blocks_spec (len := y.length) (K := K) (a := 0) (lo := rb) (hi := m) (e := re)
    (by omega) (by omega) (by omega)
    (fun k v => alpha * matVec (diaMat m nd off dval) n x k + beta * v) (by
      intro j y' f h1 h2 hy
      obtain ⟨y'', e, hr⟩ := diaVecRow_spec (alpha := alpha) (beta := beta) hK hm hx hoff hdv hb h1 h2 hy
      exact ⟨y'', e, by simpa using hr⟩) (by
      intro j y' f h1 h2 hy
      obtain ⟨i, rfl⟩ : ∃ i : Nat, j = i := ⟨j.toNat, by omega⟩
      obtain ⟨y'', e, hr⟩ := hone i y' f (by omega) hy
      refine ⟨y'', e, hr.congr (fun k _ => ?_)⟩
      by_cases hk : k = i
      · rw [hk, Function.update_self, if_pos (by omega)]
      · rw [Function.update_of_ne hk, if_neg (by omega)]) r1
  refine ⟨y2, e2, isMv_of_rows hm (r2.congr (fun k _ => ?_))⟩
  by_cases hk : k < m
  · rw [if_pos hk]
    by_cases hc : rb ≤ (k : Int)
    · rw [if_pos (by omega), if_neg (by omega)]
    · rw [if_neg (by omega), if_pos (by omega)]
  · rw [if_neg hk, if_neg (by omega), if_neg (by omega)]

theorem diamv_spec {ker : DiaKernel} {mode : Int} (hker : ∀ K, ker = .kt K → 0 < K) {y : List R}
    (hm0 : m ≠ 0) (hn0 : n ≠ 0) (hm : m ≤ y.length) (hx : n ≤ x.length) (hoff : nd ≤ off.length)
    (hdv : m * nd ≤ dval.length) :
    ∃ y', diamv ker mode alpha m n dval off nd x beta y = some y' ∧
      IsMv alpha beta (diaMat m nd off dval) m n x y y' := by
  unfold diamv
  rw [if_neg (by omega)]
  obtain ⟨h, e, hb⟩ := diaHeuristic_spec (m := m) (n := n) hoff
  simp only [e, Option.bind_eq_bind, Option.bind_some]
  by_cases hmode : mode = 0
  · simp only [hmode, if_true]
    exact diamvRef_spec hm hx hoff hdv
  · simp only [hmode, if_false]
    cases ker with
    | ref => exact diamvRef_spec hm hx hoff hdv
    | kt K =>
      simp only
      have key : ∀ b : Bool, ∃ y', (if b = true then diamvDiagmaj K alpha m n dval off nd x beta y
          else diamvRowmaj K alpha m n dval off nd h.2.1 h.2.2 x beta y) = some y' ∧
          IsMv alpha beta (diaMat m nd off dval) m n x y y' := by
        intro b
        cases b
        · exact diamvRowmaj_spec (hker K rfl) hm hx hoff hdv hb
        · exact diamvDiagmaj_spec hm hx hoff hdv
      exact key _

end
end Verif
