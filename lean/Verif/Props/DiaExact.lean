/-
C75: the elements and the rounding error of the DIA matrix-vector product.
-/
import Verif.Proofs.DiaExact
import Verif.Props.BsrExact
import Verif.Props.Dia
import Verif.Proofs.ShadowTri

namespace Verif
open Model Finset

variable {R : Type} [Zero R] [One R] [Add R] [Mul R] [DecidableEq R]

section
variable (hadd : ∀ a b : R, a + b = b + a) (hmul : ∀ a b : R, a * b = b * a)
include hadd hmul

omit [Zero R] [One R] [DecidableEq R] in
theorem DiaChain.eq {alpha : R} : ∀ {L : List (R × R)} {r z : R}, DiaChain alpha r L z →
    z = L.foldl (fun r ab => r + alpha * ab.1 * ab.2) r
  | [], _, _, h => h
  | ab :: L, r, z, ⟨r', ⟨p, hp, hr⟩, h⟩ => by
    have hp' : p = alpha * ab.1 * ab.2 := by
      rcases hp with h | h
      · exact h
      · rw [h, hmul ab.1]
    have hr' : r' = r + alpha * ab.1 * ab.2 := by
      rcases hr with h | h
      · rw [h, hp']
      · rw [h, hp', hadd]
    rw [DiaChain.eq h, hr']
    rfl

theorem DiaDiagR.eq {alpha beta v w : R} {L : List (R × R)} (h : DiaDiagR alpha beta L v w) :
    w = diaByDiags alpha beta v L := by
  obtain ⟨r, hr, hc⟩ := h
  rw [DiaChain.eq hadd hmul hc]
  unfold diaByDiags
  congr 1
  rcases hr with hr | hr <;> rw [hr]
  · unfold sc
    by_cases h0 : beta = 0
    · rw [if_pos h0, if_pos h0]
    · by_cases h1 : beta = 1
      · rw [if_neg h0, if_neg h0, if_pos h1, if_neg (by simpa using h1)]
      · rw [if_neg h0, if_neg h0, if_neg h1, if_pos h1]
  · unfold scR
    by_cases h0 : beta = 0
    · rw [if_pos h0, if_pos h0]
    · by_cases h1 : beta = 1
      · rw [if_neg h0, if_neg h0, if_pos h1, if_neg (by simpa using h1)]
      · rw [if_neg h0, if_neg h0, if_neg h1, if_pos h1, hmul]

theorem DiaRowR.eq {alpha beta v w : R} {L : List (R × R)} (h : DiaRowR alpha beta L v w) :
    w = diaByRow alpha beta v L := by
  obtain ⟨s, r, hs, hr, hw⟩ := h
  have hd : ∀ (L : List (R × R)) (r : R), dotLeft r L = dotRight r L := by
    intro L
    induction L with
    | nil => intro r; rfl
    | cons ab L ih =>
      intro r
      have := ih (ab.1 * ab.2 + r)
      unfold dotLeft dotRight at this ⊢
      rw [List.foldl_cons, List.foldl_cons, this, hadd]
  have hs' : s = dotRight 0 L := by
    rcases hs with h | h
    · exact h
    · rw [h, hd]
  have hr' : r = alpha * dotRight 0 L := by
    rcases hr with h | h
    · rw [h, hs']
    · rw [h, hs', hmul]
  rw [hw, hr']
  rfl

/-- which way is taken depends on the mode, the sizes and the offsets only -/
theorem dia_value (ker : DiaKernel) (hker : ∀ K, ker = .kt K → 0 < K) (mode : Int) (alpha beta : R)
    (m n nd : Nat) (off : List Int) (dval x y : List R)
    (hm0 : m ≠ 0) (hn0 : n ≠ 0) (hm : m ≤ y.length) (hx : n ≤ x.length) (hoff : nd ≤ off.length)
    (hdv : m * nd ≤ dval.length) :
    ∃ (y' : List R) (rows : Bool), diamv ker mode alpha m n dval off nd x beta y = some y' ∧
      rows = diaRows ker.isRef mode m n off nd ∧
      (mode = 0 ∨ mode = 2 ∨ ker = .ref → rows = false) ∧ (mode = 1 → ker ≠ .ref → rows = true) ∧
      y'.length = y.length ∧
      (∀ i, i < m → ∃ w, y[i]? = some w ∧ y'[i]? = some (if rows
        then diaByRow alpha beta w (diaPairs m n nd off dval x i)
        else diaByDiags alpha beta w (diaPairs m n nd off dval x i))) ∧
      ∀ i, m ≤ i → y'[i]? = y[i]? := by
  obtain ⟨y', e, f', r, q⟩ := diamv_val hker (mode := mode) (alpha := alpha) (beta := beta) hm0 hn0 hm hx hoff hdv
  refine ⟨y', _, e, rfl, ?_, ?_, r.1, ?_, ?_⟩
  · rintro (h | h | h)
    · subst h; simp [diaRows]
    · subst h; simp [diaRows]
    · subst h; simp [diaRows, DiaKernel.isRef]
  · intro h1 h2
    subst h1
    cases ker
    · exact absurd rfl h2
    · simp [diaRows, DiaKernel.isRef]
  · intro i hi
    have hil : i < y.length := by omega
    refine ⟨y[i], List.getElem?_eq_getElem hil, ?_⟩
    have := q i hil
    rw [if_pos hi, List.getD_eq_getElem?_getD, List.getElem?_eq_getElem hil, Option.getD_some] at this
    rw [r.2 i hil]
    congr 1
    rcases hb : diaRows ker.isRef mode m n off nd with _ | _ <;> rw [hb] at this
    · exact DiaDiagR.eq hadd hmul this
    · exact DiaRowR.eq hadd hmul this
  · intro i hi
    by_cases hil : i < y.length
    · have := q i hil
      rw [if_neg (by omega), List.getD_eq_getElem?_getD, List.getElem?_eq_getElem hil, Option.getD_some] at this
      rw [r.2 i hil, this, List.getElem?_eq_getElem hil]
    · have := r.1
      rw [List.getElem?_eq_none (by omega), List.getElem?_eq_none (by omega)]

/-- In any arithmetic with commutative addition and multiplication (no other law), so bit for bit in floating
point: every element of y is computed either diagonal by diagonal or row by row, by the operations that
`diaByDiags` or `diaByRow` lists.  Which of the two is decided by the mode asked for and, in automatic mode, by
the sizes and the offsets. -/
theorem C75_value (ker : DiaKernel) (hker : ∀ K, ker = .kt K → 0 < K) (mode : Int) (alpha beta : R)
    (m n nd : Nat) (off : List Int) (dval x y : List R)
    (hm0 : m ≠ 0) (hn0 : n ≠ 0) (hm : m ≤ y.length) (hx : n ≤ x.length) (hoff : nd ≤ off.length)
    (hdv : m * nd ≤ dval.length) :
    ∃ (y' : List R) (rows : Bool), diamv ker mode alpha m n dval off nd x beta y = some y' ∧
      (mode = 0 ∨ mode = 2 ∨ ker = .ref → rows = false) ∧ (mode = 1 → ker ≠ .ref → rows = true) ∧
      y'.length = y.length ∧
      (∀ i, i < m → ∃ w, y[i]? = some w ∧ y'[i]? = some (if rows
        then diaByRow alpha beta w (diaPairs m n nd off dval x i)
        else diaByDiags alpha beta w (diaPairs m n nd off dval x i))) ∧
      ∀ i, m ≤ i → y'[i]? = y[i]? := by
  obtain ⟨y', b, e, -, h⟩ := dia_value hadd hmul ker hker mode alpha beta m n nd off dval x y hm0 hn0 hm hx hoff hdv
  exact ⟨y', b, e, h⟩

/-- Bit for bit: two calls of the same way give the same result. -/
theorem dia_same {ker ker' : DiaKernel} (hker : ∀ K, ker = .kt K → 0 < K) (hker' : ∀ K, ker' = .kt K → 0 < K)
    {mode mode' : Int} {alpha beta : R}
    {m n nd : Nat} {off : List Int} {dval x y : List R}
    (hm : m ≤ y.length) (hx : n ≤ x.length) (hoff : nd ≤ off.length) (hdv : m * nd ≤ dval.length)
    (hs : diaRows ker.isRef mode m n off nd = diaRows ker'.isRef mode' m n off nd) :
    diamv ker mode alpha m n dval off nd x beta y = diamv ker' mode' alpha m n dval off nd x beta y := by
  by_cases h0 : m = 0 ∨ n = 0
  · unfold diamv
    rw [if_pos (by omega), if_pos (by omega)]
  · obtain ⟨y1, b1, e1, hb1, -, -, -, h1, r1⟩ := dia_value hadd hmul ker hker mode alpha beta m n nd off dval x y
      (by omega) (by omega) hm hx hoff hdv
    obtain ⟨y2, b2, e2, hb2, -, -, -, h2, r2⟩ := dia_value hadd hmul ker' hker' mode' alpha beta m n nd off dval x y
      (by omega) (by omega) hm hx hoff hdv
    rw [e1, e2]
    congr 1
    apply List.ext_getElem?
    intro i
    by_cases hi : i < m
    · obtain ⟨w, hw, g1⟩ := h1 i hi
      obtain ⟨w', hw', g2⟩ := h2 i hi
      rw [hw] at hw'
      cases hw'
      rw [g1, g2, hb1, hb2, hs]
    · rw [r1 i (by omega), r2 i (by omega)]

/-- Bit for bit: the result does not depend on the register width of the instruction set. -/
theorem C75_isa (K K' : Nat) (hK : 0 < K) (hK' : 0 < K') (mode : Int) (alpha beta : R)
    (m n nd : Nat) (off : List Int) (dval x y : List R)
    (hm : m ≤ y.length) (hx : n ≤ x.length) (hoff : nd ≤ off.length) (hdv : m * nd ≤ dval.length) :
    diamv (.kt K) mode alpha m n dval off nd x beta y = diamv (.kt K') mode alpha m n dval off nd x beta y :=
  dia_same hadd hmul (fun _ e => by cases e; exact hK) (fun _ e => by cases e; exact hK') hm hx hoff hdv rfl

/-- Bit for bit: the diagonal-major kernels give what the reference kernel gives. -/
theorem C75_ref (K : Nat) (hK : 0 < K) (ker : DiaKernel) (hker : ∀ K, ker = .kt K → 0 < K) (alpha beta : R)
    (m n nd : Nat) (off : List Int) (dval x y : List R)
    (hm : m ≤ y.length) (hx : n ≤ x.length) (hoff : nd ≤ off.length) (hdv : m * nd ≤ dval.length) :
    diamv (.kt K) 2 alpha m n dval off nd x beta y = diamv ker 0 alpha m n dval off nd x beta y :=
  dia_same hadd hmul (fun _ e => by cases e; exact hK) hker hm hx hoff hdv (by simp [diaRows])

end

/-! ### rounding -/

section
variable {ρ : Rounding} {v : R → ℝ} {fac : R → Option (ℝ × ℝ)}

omit [One R] [DecidableEq R] in
theorem DiaChain.near (hR : Contracts ρ v fac) {alpha : R} (ha : fac alpha = none) {L : List (R × R)}
    (hL : PlainL fac L) : ∀ {r z : R} {k : Nat} {e s : ℝ}, 2 ≤ k → NearC ρ v fac k e s r → DiaChain alpha r L z →
      NearC ρ v fac (k + L.length) (e + v alpha * dotV v L) (s + |v alpha| * dotS v L) z := by
  induction L with
  | nil =>
    intro r z k e s _ h hc
    cases hc
    simpa [dotV, dotS] using h
  | cons ab L ih =>
    rintro r z k e s hk h ⟨r', ⟨p, hp, hr⟩, hc⟩
    have hy' : NearC ρ v fac k (v alpha * (v ab.1 * v ab.2)) (|v alpha| * (|v ab.1| * |v ab.2|)) p := by
      rcases hp with rfl | rfl
      · have h1 := NearC.mul_right hR ab.2 (NearC.mul_right hR ab.1 (NearC.plain (ρ := ρ) (v := v) ha))
        have e1 : v ab.2 * (v ab.1 * v alpha) = v alpha * (v ab.1 * v ab.2) := by ring
        have e2 : |v ab.2| * (|v ab.1| * |v alpha|) = |v alpha| * (|v ab.1| * |v ab.2|) := by ring
        rw [e1, e2] at h1
        exact h1.mono hk
      · have h1 := NearC.mul_right hR ab.2 (NearC.mul_left hR ab.1 (NearC.plain (ρ := ρ) (v := v) ha))
        have e1 : v ab.2 * (v ab.1 * v alpha) = v alpha * (v ab.1 * v ab.2) := by ring
        have e2 : |v ab.2| * (|v ab.1| * |v alpha|) = |v alpha| * (|v ab.1| * |v ab.2|) := by ring
        rw [e1, e2] at h1
        exact h1.mono hk
    have hs : NearC ρ v fac (k + 1) (v alpha * (v ab.1 * v ab.2) + e) (|v alpha| * (|v ab.1| * |v ab.2|) + s) r' := by
      rcases hr with g | g <;> rw [g]
      · rw [add_comm (v alpha * _), add_comm (|v alpha| * _)]
        exact h.add hR hy'
      · exact hy'.add hR h
    have := ih (fun x hx => hL x (.tail _ hx)) (by omega) hs hc
    have e1 : v alpha * (v ab.1 * v ab.2) + e + v alpha * dotV v L = e + v alpha * dotV v (ab :: L) := by
      unfold dotV; simp; ring
    have e2 : |v alpha| * (|v ab.1| * |v ab.2|) + s + |v alpha| * dotS v L = s + |v alpha| * dotS v (ab :: L) := by
      unfold dotS; simp; ring
    rw [e1, e2, show k + 1 + L.length = k + (ab :: L).length by simp; omega] at this
    exact this

theorem scR_rel (hR : Contracts ρ v fac) (h1 : v 1 = 1) (beta : R) {q : R} (hq : fac q = none) :
    NearC ρ v fac 1 (v beta * v q) (|v beta| * |v q|) (scR beta q) := by
  unfold scR
  by_cases h0 : beta = 0
  · rw [if_pos h0, h0, hR.zero, abs_zero, zero_mul, zero_mul]
    exact (NearC.zero hR).mono (Nat.zero_le 1)
  · rw [if_neg h0]
    by_cases hb : beta = 1
    · rw [if_neg (by simpa using hb), hb, h1, abs_one, one_mul, one_mul]
      exact (NearC.plain hq).mono (Nat.zero_le 1)
    · rw [if_pos hb]
      exact NearC.mul_right hR beta (NearC.plain hq)

theorem DiaDiagR.near (hR : Contracts ρ v fac) (h1 : v 1 = 1) {alpha beta q w : R} (ha : fac alpha = none)
    (hq : fac q = none) {L : List (R × R)} (hL : PlainL fac L) (h : DiaDiagR alpha beta L q w) :
    NearC ρ v fac (L.length + 3) (v alpha * dotV v L + v beta * v q) (|v alpha| * dotS v L + |v beta| * |v q|) w := by
  obtain ⟨r, hr, hc⟩ := h
  have hr' : NearC ρ v fac 1 (v beta * v q) (|v beta| * |v q|) r := by
    rcases hr with h | h <;> rw [h]
    · exact sc_rel hR h1 beta hq
    · exact scR_rel hR h1 beta hq
  have := DiaChain.near hR ha hL (le_refl 2) (hr'.mono (by omega)) hc
  rw [add_comm (v beta * v q), add_comm (|v beta| * |v q|)] at this
  exact this.mono (by omega)

theorem DiaRowR.near (hR : Contracts ρ v fac) (h1 : v 1 = 1) {alpha beta q w : R}
    (hq : fac q = none) {L : List (R × R)} (hL : PlainL fac L) (h : DiaRowR alpha beta L q w) :
    NearC ρ v fac (L.length + 3) (v alpha * dotV v L + v beta * v q) (|v alpha| * dotS v L + |v beta| * |v q|) w := by
  obtain ⟨s, r, hs, hr, hw⟩ := h
  have hs' : NearC ρ v fac (L.length + 1) (dotV v L) (dotS v L) s := by
    rcases hs with h | h <;> rw [h]
    · have a2 := dotRight_near hR hL (le_refl 1) ((NearC.zero hR).mono (Nat.zero_le 1))
      rw [zero_add, zero_add, Nat.add_comm] at a2
      exact a2
    · exact dotLeft0_near hR hL
  have hr' : NearC ρ v fac (L.length + 1 + 1) (v alpha * dotV v L) (|v alpha| * dotS v L) r := by
    rcases hr with h | h <;> rw [h]
    · exact NearC.mul_left hR alpha hs'
    · exact NearC.mul_right hR alpha hs'
  rw [hw]
  by_cases h0 : beta = 0
  · rw [if_pos h0, h0, hR.zero, abs_zero, zero_mul, zero_mul, add_zero, add_zero]
    exact hr'.mono (by omega)
  · rw [if_neg h0]
    by_cases hb : beta = 1
    · rw [if_pos hb, hb, h1, abs_one, one_mul, one_mul, add_comm (v alpha * _), add_comm (|v alpha| * _)]
      exact ((NearC.plain hq).mono (Nat.zero_le _)).add hR hr'
    · rw [if_neg hb]
      exact lin_near hR alpha beta hq hr' (.inr rfl) (.inr rfl)

omit [One R] [Add R] [Mul R] [DecidableEq R] in
theorem diaPairs_sum (f : R → ℝ) (h0 : f 0 = 0) (m n : Nat) (off : List Int) (dval x : List R) (i : Nat) :
    ∀ nd, ((diaPairs m n nd off dval x i).map fun ab => f ab.1 * f ab.2).sum
      = matVec (diaMat m nd off (dval.map f)) n (x.map f) i := by
  intro nd
  rw [matVec_dia]
  induction nd with
  | zero => rfl
  | succ d ih =>
    rw [sum_range_succ, ← ih]
    unfold diaPairs diaTerm
    rw [List.range_succ, List.filterMap_append, List.map_append, List.sum_append]
    congr 1
    rw [List.filterMap_cons]
    unfold diaPair
    by_cases hc : 0 ≤ (i : Int) + off.getD d 0 ∧ (i : Int) + off.getD d 0 < n
    · rw [if_pos hc, if_pos hc, getD_map0 h0, getD_map0 h0]
      simp
    · rw [if_neg hc, if_neg hc]
      rfl

/-- In floating point, whichever products the compiler fuses and whichever kernel runs, every element of the
result differs from `alpha * M * x + beta * y` by at most `(1+u)^(t+3) - 1` times the sum of the sizes of the
terms, where `t` is the number of stored diagonals that cross its row. -/
theorem C75_error (hR : Contracts ρ v fac) (h1 : v 1 = 1) (ker : DiaKernel) (hker : ∀ K, ker = .kt K → 0 < K)
    (mode : Int) (alpha beta : R) (m n nd : Nat) (off : List Int) (dval x y : List R)
    (hm0 : m ≠ 0) (hn0 : n ≠ 0) (hm : m ≤ y.length) (hx : n ≤ x.length) (hoff : nd ≤ off.length)
    (hdv : m * nd ≤ dval.length) (pa : fac alpha = none)
    (pD : ∀ a ∈ dval, fac a = none) (pX : ∀ a ∈ x, fac a = none) (pY : ∀ a ∈ y, fac a = none) :
    ∃ y', diamv ker mode alpha m n dval off nd x beta y = some y' ∧
      MvErr ρ v (fun i => ((List.range nd).filter fun d =>
          decide (0 ≤ (i : Int) + off.getD d 0 ∧ (i : Int) + off.getD d 0 < n)).length + 3) alpha beta
        (diaMat m nd off (dval.map v)) (diaMat m nd off (dval.map fun a => |v a|)) m n x y y' := by
  obtain ⟨y', e, f', r, q⟩ := diamv_val hker (mode := mode) (alpha := alpha) (beta := beta) hm0 hn0 hm hx hoff hdv
  refine ⟨y', e, r.1, ?_, ?_⟩
  · intro i hi
    have hil : i < y.length := by omega
    refine ⟨y[i], f' i, List.getElem?_eq_getElem hil, r.2 i hil, ?_⟩
    have := q i hil
    rw [if_pos hi, List.getD_eq_getElem?_getD, List.getElem?_eq_getElem hil, Option.getD_some] at this
    have hpl : PlainL fac (diaPairs m n nd off dval x i) := by
      have g : ∀ (l : List R), (∀ a ∈ l, fac a = none) → ∀ k, fac (l.getD k 0) = none := by
        intro l hl k
        rw [List.getD_eq_getElem?_getD]
        rcases hk : l[k]? with _ | a
        · exact hR.zero_fac
        · exact hl a (List.mem_of_getElem? hk)
      intro ab hab
      obtain ⟨d, -, hd⟩ := List.mem_filterMap.1 hab
      unfold diaPair at hd
      split at hd
      · cases hd
        exact ⟨g _ pD _, g _ pX _⟩
      · cases hd
    have hlen : ∀ L : List Nat, (L.filterMap (diaPair m n off dval x i)).length = (L.filter fun d =>
        decide (0 ≤ (i : Int) + off.getD d 0 ∧ (i : Int) + off.getD d 0 < n)).length := by
      intro L
      induction L with
      | nil => rfl
      | cons d L ih =>
        rw [List.filterMap_cons, List.filter_cons]
        unfold diaPair at ih ⊢
        by_cases hc : 0 ≤ (i : Int) + off.getD d 0 ∧ (i : Int) + off.getD d 0 < n
        · rw [if_pos hc, if_pos (by simpa using hc)]
          simp only [List.length_cons, ih]
        · rw [if_neg hc, if_neg (by simpa using hc)]
          exact ih
    have pq := pY _ (List.getElem_mem hil)
    have hn : NearC ρ v fac ((diaPairs m n nd off dval x i).length + 3)
        (v alpha * dotV v (diaPairs m n nd off dval x i) + v beta * v y[i])
        (|v alpha| * dotS v (diaPairs m n nd off dval x i) + |v beta| * |v y[i]|) (f' i) := by
      rcases hb : diaRows ker.isRef mode m n off nd with _ | _
      · rw [hb] at this
        exact DiaDiagR.near hR h1 pa pq hpl this
      · rw [hb] at this
        exact DiaRowR.near hR h1 pq hpl this
    have := hn.1.2
    have hV : dotV v (diaPairs m n nd off dval x i) = matVec (diaMat m nd off (dval.map v)) n (x.map v) i :=
      diaPairs_sum v hR.zero m n off dval x i nd
    have hS : dotS v (diaPairs m n nd off dval x i)
        = matVec (diaMat m nd off (dval.map fun a => |v a|)) n (x.map fun a => |v a|) i :=
      diaPairs_sum (fun a => |v a|) (by simp [hR.zero]) m n off dval x i nd
    rw [hV, hS] at this
    unfold diaPairs at this
    rw [hlen] at this
    exact this
  · intro i hi
    by_cases hil : i < y.length
    · have := q i hil
      rw [if_neg (by omega), List.getD_eq_getElem?_getD, List.getElem?_eq_getElem hil, Option.getD_some] at this
      rw [r.2 i hil, this, List.getElem?_eq_getElem hil]
    · have := r.1
      rw [List.getElem?_eq_none (by omega), List.getElem?_eq_none (by omega)]

end

/-! ### examples -/

/-- `[[5, 2], [1, 6], [0, 3]]` by its diagonals -1, 0, 1, on every kernel -/
example (ker : DiaKernel) (hker : ∀ K, ker = .kt K → 0 < K) (mode : Int) :=
  C75_error (fp_contracts (binary 53)) rfl ker hker mode ⟨7⟩ ⟨10⟩ 3 2 3 [-1, 0, 1]
    [⟨0⟩, ⟨1⟩, ⟨3⟩, ⟨5⟩, ⟨6⟩, ⟨0⟩, ⟨2⟩, ⟨0⟩, ⟨0⟩] [⟨1⟩, ⟨2⟩] [⟨1⟩, ⟨1⟩, ⟨1⟩] (by decide) (by decide) (by decide) (by decide)
    (by decide) (by decide) rfl (fun _ _ => rfl) (fun _ _ => rfl) (fun _ _ => rfl)
example : diaPairs 3 2 3 [-1, 0, 1] [0, 1, 3, 5, 6, 0, 2, 0, 0] [10, 20] 1 = [((1 : ℤ), 10), (6, 20)] := by decide +kernel

theorem fp_add_comm {ρ : Rounding} (a b : Fp ρ) : a + b = b + a := by
  show Fp.mk _ = Fp.mk _
  rw [add_comm]
theorem fp_mul_comm {ρ : Rounding} (a b : Fp ρ) : a * b = b * a := by
  show Fp.mk _ = Fp.mk _
  rw [mul_comm]
/-- registers of 4 and of 8, row by row -/
example := C75_isa (R := Fp (binary 53)) fp_add_comm fp_mul_comm 4 8 (by decide) (by decide) 1 ⟨7⟩ ⟨10⟩ 3 2 3 [-1, 0, 1]
    [⟨0⟩, ⟨1⟩, ⟨3⟩, ⟨5⟩, ⟨6⟩, ⟨0⟩, ⟨2⟩, ⟨0⟩, ⟨0⟩] [⟨1⟩, ⟨2⟩] [⟨1⟩, ⟨1⟩, ⟨1⟩] (by decide) (by decide) (by decide) (by decide)
example := C75_value (R := Fp (binary 53)) fp_add_comm fp_mul_comm (.kt 4) (fun _ e => by cases e; decide) (-1) ⟨7⟩ ⟨10⟩ 3 2 3 [-1, 0, 1]
    [⟨0⟩, ⟨1⟩, ⟨3⟩, ⟨5⟩, ⟨6⟩, ⟨0⟩, ⟨2⟩, ⟨0⟩, ⟨0⟩] [⟨1⟩, ⟨2⟩] [⟨1⟩, ⟨1⟩, ⟨1⟩] (by decide) (by decide) (by decide) (by decide)
    (by decide) (by decide)
example := C75_ref (R := Fp (binary 53)) fp_add_comm fp_mul_comm 4 (by decide) .ref (fun _ e => by cases e) ⟨7⟩ ⟨10⟩ 3 2 3 [-1, 0, 1]
    [⟨0⟩, ⟨1⟩, ⟨3⟩, ⟨5⟩, ⟨6⟩, ⟨0⟩, ⟨2⟩, ⟨0⟩, ⟨0⟩] [⟨1⟩, ⟨2⟩] [⟨1⟩, ⟨1⟩, ⟨1⟩] (by decide) (by decide) (by decide) (by decide)

end Verif
