/-
Triangular solves: strided vectors, the two elimination orders, and the kernels.
-/
import Verif.Model.Trsv
import Verif.Spec.Solve
import Verif.Proofs.CsrmvSym
import Mathlib.Algebra.Field.Basic
import Mathlib.Algebra.BigOperators.Group.Finset.Basic
import Mathlib.Tactic.FieldSimp
import Mathlib.Tactic.Abel

namespace Verif
open Model Finset

variable {R : Type}

/-! ### strided vectors -/

/-- `x` is the array `x0` with the `n` cells at stride `inc` holding `g 0, …, g (n-1)` -/
structure SVec (x0 x : List R) (inc n : Nat) (g : Nat → R) : Prop where
  len : x.length = x0.length
  val : ∀ i, i < n → x[i * inc]? = some (g i)
  rest : ∀ k, (∀ i, i < n → k ≠ i * inc) → x[k]? = x0[k]?

namespace SVec
variable {x0 x : List R} {inc n : Nat} {g : Nat → R}

theorem start [Zero R] (x0 : List R) (inc n : Nat) (h : ∀ i, i < n → i * inc < x0.length) :
    SVec x0 x0 inc n (fun i => x0.getD (i * inc) 0) := by
  refine ⟨rfl, ?_, fun _ _ => rfl⟩
  intro i hi
  simp [h i hi]

theorem rd (h : SVec x0 x inc n g) {i : Nat} (hi : i < n) :
    Verif.rd x ((i : Int) * inc) = some (g i) := by
  rw [show (i : Int) * inc = ((i * inc : Nat) : Int) by push_cast; rfl, rd_ofNat, h.val i hi]

theorem rdc (h : SVec x0 x inc n g) {c : Int} (h0 : 0 ≤ c) (h1 : c < n) (base : Int) :
    Verif.rd x ((c + base) * inc - base * inc) = some (g c.toNat) := by
  rw [show (c + base) * (inc : Int) - base * inc = ((c.toNat : Nat) : Int) * inc by
    rw [Int.toNat_of_nonneg h0]; ring]
  exact h.rd (by omega)

theorem wr (h : SVec x0 x inc n g) (hinc : 0 < inc) {i : Nat} (hi : i < n) (v : R) :
    ∃ x', Verif.wr x ((i : Int) * inc) v = some x' ∧
      SVec x0 x' inc n (Function.update g i v) := by
  have hlt : i * inc < x.length := by
    have := h.val i hi
    by_contra hn
    rw [List.getElem?_eq_none (by omega)] at this
    simp at this
  refine ⟨x.set (i * inc) v, ?_, ?_, ?_, ?_⟩
  · rw [show (i : Int) * inc = ((i * inc : Nat) : Int) by push_cast; rfl, wr_ofNat hlt]
  · simp [h.len]
  · intro k hk
    rw [List.getElem?_set]
    by_cases hik : i = k
    · subst hik
      simp [hlt]
    · have : i * inc ≠ k * inc := fun e => hik (Nat.eq_of_mul_eq_mul_right hinc e)
      rw [if_neg this, h.val k hk, Function.update_of_ne (Ne.symm hik)]
  · intro k hk
    rw [List.getElem?_set, if_neg (Ne.symm (hk i hi)), h.rest k hk]

theorem wrc (h : SVec x0 x inc n g) (hinc : 0 < inc) {c : Int} (h0 : 0 ≤ c) (h1 : c < n)
    (base : Int) (v : R) :
    ∃ x', Verif.wr x ((c + base) * inc - base * inc) v = some x' ∧
      SVec x0 x' inc n (Function.update g c.toNat v) := by
  rw [show (c + base) * (inc : Int) - base * inc = ((c.toNat : Nat) : Int) * inc by
    rw [Int.toNat_of_nonneg h0]; ring]
  exact h.wr hinc (by omega) v

theorem congr (h : SVec x0 x inc n g) {g' : Nat → R} (e : ∀ i, i < n → g i = g' i) :
    SVec x0 x inc n g' :=
  ⟨h.len, fun i hi => by rw [h.val i hi, e i hi], h.rest⟩

end SVec

/-! ### elimination -/

section
variable [Field R] {m : Nat}

/-- the rows in `P` are solved -/
def RowsOk (m : Nat) (d : Nat → R) (C : Nat → Nat → R) (rhs : Nat → R) (P : Finset Nat)
    (g : Nat → R) : Prop :=
  ∀ k ∈ P, d k * g k + ∑ j ∈ range m, C k j * g j = rhs k

theorem RowsOk.step {d : Nat → R} {C : Nat → Nat → R} {rhs : Nat → R} {P : Finset Nat}
    {g : Nat → R} (h : RowsOk m d C rhs P g) {i : Nat} (hiP : i ∉ P) (hii : C i i = 0)
    (hPi : ∀ k ∈ P, C k i = 0) (hd : d i ≠ 0) :
    RowsOk m d C rhs (insert i P)
      (Function.update g i ((rhs i - ∑ j ∈ range m, C i j * g j) / d i)) := by
  have hsum : ∀ k v, C k i = 0 →
      ∑ j ∈ range m, C k j * Function.update g i v j = ∑ j ∈ range m, C k j * g j := by
    intro k v hk
    apply sum_congr rfl
    intro j _
    by_cases hj : j = i
    · subst hj; rw [hk, zero_mul, zero_mul]
    · rw [Function.update_of_ne hj]
  intro k hk
  rcases mem_insert.mp hk with rfl | hk
  · rw [hsum _ _ hii, Function.update_self, mul_div_cancel₀ _ hd]
    ring
  · have hne : k ≠ i := fun e => hiP (e ▸ hk)
    rw [hsum _ _ (hPi k hk), Function.update_of_ne hne]
    exact h k hk

/-- the columns in `P` are eliminated -/
def ColsOk (m : Nat) (d : Nat → R) (C : Nat → Nat → R) (rhs : Nat → R) (P : Finset Nat)
    (g : Nat → R) : Prop :=
  ∀ j, j < m → (if j ∈ P then d j else 1) * g j + ∑ k ∈ P, C k j * g k = rhs j

/-- the vector after eliminating column `i` -/
def colStep (d : Nat → R) (C : Nat → Nat → R) (i : Nat) (g : Nat → R) : Nat → R :=
  fun j => Function.update g i (g i / d i) j - C i j * (g i / d i)

theorem ColsOk.step {d : Nat → R} {C : Nat → Nat → R} {rhs : Nat → R} {P : Finset Nat}
    {g : Nat → R} (h : ColsOk m d C rhs P g) {i : Nat} (him : i < m) (hiP : i ∉ P)
    (hii : C i i = 0) (hPi : ∀ k ∈ P, C i k = 0) (hd : d i ≠ 0) :
    ColsOk m d C rhs (insert i P) (colStep d C i g) := by
  have hgi : colStep d C i g i = g i / d i := by
    simp [colStep, hii]
  have hgk : ∀ k ∈ P, colStep d C i g k = g k := by
    intro k hk
    have hne : k ≠ i := fun e => hiP (e ▸ hk)
    simp [colStep, hPi k hk, Function.update_of_ne hne]
  intro j hj
  rw [sum_insert hiP, hgi, sum_congr rfl (fun k hk => by rw [hgk k hk])]
  have hj' := h j hj
  by_cases hji : j = i
  · subst hji
    rw [if_neg hiP] at hj'
    rw [if_pos (mem_insert_self _ _), hgi, hii, mul_div_cancel₀ _ hd, ← hj']
    ring
  · by_cases hjP : j ∈ P
    · rw [if_pos hjP] at hj'
      rw [if_pos (mem_insert_of_mem hjP), hgk j hjP, hPi j hjP, ← hj']
      ring
    · rw [if_neg hjP] at hj'
      rw [if_neg (by simp [hji, hjP]), ← hj']
      simp only [colStep, Function.update_of_ne hji]
      ring

/-- solving rows in increasing order -/
theorem rows_fwd {d : Nat → R} {C : Nat → Nat → R} {rhs : Nat → R} {x0 x : List R} {inc : Nat}
    {g : Nat → R} {body : Int → List R → Option (List R)} (hx : SVec x0 x inc m g)
    (hb : ∀ i, i < m → ∀ x g, SVec x0 x inc m g → ∃ x', body (i : Int) x = some x' ∧
      SVec x0 x' inc m (Function.update g i ((rhs i - ∑ j ∈ range m, C i j * g j) / d i)))
    (hC : ∀ i j, i < m → i ≤ j → C i j = 0) (hd : ∀ i, i < m → d i ≠ 0) :
    ∃ x' g', forC 0 (m : Int) body x = some x' ∧ SVec x0 x' inc m g' ∧
      RowsOk m d C rhs (range m) g' := by
  obtain ⟨x', e, g', h1, h2⟩ := forC_inv_nat (n := m) (f := body) (s := x)
    (P := fun i x => ∃ g, SVec x0 x inc m g ∧ RowsOk m d C rhs (range i) g)
    ⟨g, hx, by simp [RowsOk]⟩ (by
      rintro i x hi ⟨g, h1, h2⟩
      obtain ⟨x', e, h3⟩ := hb i hi x g h1
      refine ⟨x', e, _, h3, ?_⟩
      rw [range_add_one]
      exact h2.step (by simp) (hC i i hi le_rfl)
        (fun k hk => hC k i (by simp at hk; omega) (by simp at hk; omega)) (hd i hi))
  exact ⟨x', g', e, h1, h2⟩

/-- the indices from `i` on -/
def fromTo (i m : Nat) : Finset Nat := (range m).filter (i ≤ ·)

theorem fromTo_top (m : Nat) : fromTo m m = ∅ := by
  ext k; simp [fromTo]
theorem fromTo_zero (m : Nat) : fromTo 0 m = range m := by
  ext k; simp [fromTo]
theorem fromTo_succ {i m : Nat} (h : i < m) : fromTo i m = insert i (fromTo (i + 1) m) := by
  ext k; simp [fromTo]; omega
theorem mem_fromTo {i m k : Nat} : k ∈ fromTo i m ↔ k < m ∧ i ≤ k := by
  simp [fromTo]

/-- invariant rule for a loop from `m-1` down to 0 -/
theorem forD_inv_nat {σ : Type} {m : Nat} {f : Int → σ → Option σ} {s : σ} (P : Nat → σ → Prop)
    (h0 : P m s)
    (hs : ∀ (i : Nat) s, i < m → P (i + 1) s → ∃ s', f i s = some s' ∧ P i s') :
    ∃ s', forD ((m : Int) - 1) 0 f s = some s' ∧ P 0 s' := by
  obtain ⟨s', e, i, h1, h2⟩ := forD_inv (lo := 0) (hi := (m : Int) - 1) (f := f) (s := s)
    (P := fun j s => ∃ i : Nat, j = (i : Int) ∧ P i s) (by omega) ⟨m, by omega, h0⟩ (by
      rintro j s h1 h2 ⟨i, hi, hp⟩
      obtain ⟨i', rfl⟩ : ∃ i', i = i' + 1 := ⟨i - 1, by omega⟩
      have : j = (i' : Int) := by push_cast at hi; omega
      subst this
      obtain ⟨s', e, h⟩ := hs i' s (by omega) hp
      exact ⟨s', e, i', rfl, h⟩)
  have : i = 0 := by omega
  subst this
  exact ⟨s', e, h2⟩

/-- solving rows in decreasing order -/
theorem rows_bwd {d : Nat → R} {C : Nat → Nat → R} {rhs : Nat → R} {x0 x : List R} {inc : Nat}
    {g : Nat → R} {body : Int → List R → Option (List R)} (hx : SVec x0 x inc m g)
    (hb : ∀ i, i < m → ∀ x g, SVec x0 x inc m g → ∃ x', body (i : Int) x = some x' ∧
      SVec x0 x' inc m (Function.update g i ((rhs i - ∑ j ∈ range m, C i j * g j) / d i)))
    (hC : ∀ i j, i < m → j ≤ i → C i j = 0) (hd : ∀ i, i < m → d i ≠ 0) :
    ∃ x' g', forD ((m : Int) - 1) 0 body x = some x' ∧ SVec x0 x' inc m g' ∧
      RowsOk m d C rhs (range m) g' := by
  obtain ⟨x', e, g', h1, h2⟩ := forD_inv_nat (m := m) (f := body) (s := x)
    (P := fun i x => ∃ g, SVec x0 x inc m g ∧ RowsOk m d C rhs (fromTo i m) g)
    ⟨g, hx, by simp [RowsOk, fromTo_top]⟩ (by
      rintro i x hi ⟨g, h1, h2⟩
      obtain ⟨x', e, h3⟩ := hb i hi x g h1
      refine ⟨x', e, _, h3, ?_⟩
      rw [fromTo_succ hi]
      exact h2.step (by simp [mem_fromTo]) (hC i i hi le_rfl)
        (fun k hk => hC k i (mem_fromTo.mp hk).1 (by have := (mem_fromTo.mp hk).2; omega)) (hd i hi))
  rw [fromTo_zero] at h2
  exact ⟨x', g', e, h1, h2⟩

/-- eliminating columns in increasing order -/
theorem cols_fwd {d : Nat → R} {C : Nat → Nat → R} {x0 x : List R} {inc : Nat}
    {g : Nat → R} {body : Int → List R → Option (List R)} (hx : SVec x0 x inc m g)
    (hb : ∀ i, i < m → ∀ x g, SVec x0 x inc m g → ∃ x', body (i : Int) x = some x' ∧
      SVec x0 x' inc m (colStep d C i g))
    (hC : ∀ i j, i < m → j ≤ i → C i j = 0) (hd : ∀ i, i < m → d i ≠ 0) :
    ∃ x' g', forC 0 (m : Int) body x = some x' ∧ SVec x0 x' inc m g' ∧
      ColsOk m d C g (range m) g' := by
  obtain ⟨x', e, g', h1, h2⟩ := forC_inv_nat (n := m) (f := body) (s := x)
    (P := fun i x => ∃ g', SVec x0 x inc m g' ∧ ColsOk m d C g (range i) g')
    ⟨g, hx, by simp [ColsOk]⟩ (by
      rintro i x hi ⟨g, h1, h2⟩
      obtain ⟨x', e, h3⟩ := hb i hi x g h1
      refine ⟨x', e, _, h3, ?_⟩
      rw [range_add_one]
      exact h2.step hi (by simp) (hC i i hi le_rfl)
        (fun k hk => hC i k hi (by simp at hk; omega)) (hd i hi))
  exact ⟨x', g', e, h1, h2⟩

/-- eliminating columns in decreasing order -/
theorem cols_bwd {d : Nat → R} {C : Nat → Nat → R} {x0 x : List R} {inc : Nat}
    {g : Nat → R} {body : Int → List R → Option (List R)} (hx : SVec x0 x inc m g)
    (hb : ∀ i, i < m → ∀ x g, SVec x0 x inc m g → ∃ x', body (i : Int) x = some x' ∧
      SVec x0 x' inc m (colStep d C i g))
    (hC : ∀ i j, i < m → i ≤ j → C i j = 0) (hd : ∀ i, i < m → d i ≠ 0) :
    ∃ x' g', forD ((m : Int) - 1) 0 body x = some x' ∧ SVec x0 x' inc m g' ∧
      ColsOk m d C g (range m) g' := by
  obtain ⟨x', e, g', h1, h2⟩ := forD_inv_nat (m := m) (f := body) (s := x)
    (P := fun i x => ∃ g', SVec x0 x inc m g' ∧ ColsOk m d C g (fromTo i m) g')
    ⟨g, hx, by simp [ColsOk, fromTo_top]⟩ (by
      rintro i x hi ⟨g, h1, h2⟩
      obtain ⟨x', e, h3⟩ := hb i hi x g h1
      refine ⟨x', e, _, h3, ?_⟩
      rw [fromTo_succ hi]
      exact h2.step hi (by simp [mem_fromTo]) (hC i i hi le_rfl)
        (fun k hk => hC i k hi (by have := (mem_fromTo.mp hk).2; omega)) (hd i hi))
  rw [fromTo_zero] at h2
  exact ⟨x', g', e, h1, h2⟩

end

/-! ### the pieces of the kernels -/

section
variable [Field R] [DecidableEq R]
variable {icol : List Int} {a : List R} {base lo hi : Int} {S : List (Int × R)}
variable {x0 x : List R} {inc m : Nat} {g : Nat → R}

/-- the row product -/
def lsum (cj : R → R) (S : List (Int × R)) (g : Nat → R) : R :=
  (S.map fun e => cj e.2 * g e.1.toNat).sum

theorem lsum_append (cj : R → R) (S T : List (Int × R)) (g : Nat → R) :
    lsum cj (S ++ T) g = lsum cj S g + lsum cj T g := by
  simp [lsum]

theorem lsum_eq (cj : R →+ R) (hr : ∀ e ∈ S, 0 ≤ e.1 ∧ e.1 < m) (g : Nat → R) :
    lsum cj S g = ∑ j ∈ range m, cj (colSum S j) * g j := filter_sum_map cj S m g hr

theorem sub_seg (cj : R → R) (h : Seg icol a base lo hi S) (hx : SVec x0 x inc m g)
    (hr : ∀ e ∈ S, 0 ≤ e.1 ∧ e.1 < m) (xi : R) :
    forC lo hi (trsvSub cj base a icol inc x) xi = some (xi - lsum cj S g) := by
  have := h.forC (σ := R) (fun c v xi => (rd x (c * inc - base * inc)).bind fun xc =>
    some (xi - cj v * xc)) xi
  refine Eq.trans ?_ (this.trans ?_)
  · rfl
  · clear this h
    induction S generalizing xi with
    | nil => simp [lsum]
    | cons e S ih =>
      have he := hr e (by simp)
      rw [List.foldlM_cons, hx.rdc he.1 he.2 base]
      simp only [Option.bind_eq_bind, Option.bind_some]
      rw [ih (fun e he => hr e (by simp [he]))]
      simp only [lsum, List.map_cons, List.sum_cons]
      congr 1; ring

theorem trsvLanes_seg (cj : R → R) (h : Seg icol a base lo hi S) (hx : SVec x0 x inc m g)
    (hr : ∀ e ∈ S, 0 ≤ e.1 ∧ e.1 < m) {q K : Nat} (hq : q + K ≤ S.length) :
    trsvLanes cj K base a icol inc x (lo + q)
      = some (((S.drop q).take K).map fun e => (cj e.2, g e.1.toNat)) := by
  have : ((S.drop q).take K).map (fun e => (cj e.2, g e.1.toNat))
      = (List.range K).map fun l => (cj (S.getD (q + l) (0, 0)).2,
          g (S.getD (q + l) (0, 0)).1.toNat) := by
    apply List.ext_getElem
    · simp; omega
    · intro l h1 h2
      simp only [List.length_map, List.length_range] at h2
      have hlt : q + l < S.length := by omega
      simp [List.getElem?_eq_getElem hlt]
  rw [this]
  unfold trsvLanes
  apply mapM_range_some
  intro l hl
  have hlt : q + l < S.length := by omega
  obtain ⟨e1, e2⟩ := h.2 (q + l) hlt
  have hrr := hr _ (List.getElem_mem hlt)
  rw [show lo + (q : Int) + (l : Int) - base = lo - base + ((q + l : Nat) : Int) by push_cast; ring,
    e1, e2]
  have e3 := hx.rdc hrr.1 hrr.2 base
  simp [e3, List.getElem?_eq_getElem hlt]

/-- a segment split into full groups of `K` and a remainder -/
theorem seg_split (h : Seg icol a base lo hi S) {K : Nat} (hK : 0 < K) :
    (hi - lo).tmod K = ((S.length % K : Nat) : Int) ∧
    hi - ((S.length % K : Nat) : Int) = lo + ((K * (S.length / K) : Nat) : Int) ∧
    Seg icol a base (lo + ((K * (S.length / K) : Nat) : Int)) hi (S.drop (K * (S.length / K))) := by
  have hlen : hi - lo = (S.length : Int) := by have := h.1; omega
  have hdm := Nat.div_add_mod S.length K
  refine ⟨?_, by omega, ?_⟩
  · rw [hlen, Int.tmod_eq_emod_of_nonneg (by omega)]; push_cast; rfl
  · have hS : S = S.take (K * (S.length / K)) ++ S.drop (K * (S.length / K)) :=
      (List.take_append_drop _ _).symm
    rw [hS] at h
    have := h.append_right
    rwa [List.length_take, Nat.min_eq_left (by omega)] at this

/-- the blocked row product -/
theorem ktRowDot_spec {V : Vec R} {K : Nat} (hV : V.Ok K) (cj : R → R)
    (h : Seg icol a base lo hi S) (hx : SVec x0 x inc m g)
    (hr : ∀ e ∈ S, 0 ≤ e.1 ∧ e.1 < m) (xi : R) :
    ktRowDot V K cj base a icol inc x lo hi xi = some (xi - lsum cj S g) := by
  obtain ⟨hK, Inv, i0, i1, i2⟩ := hV
  obtain ⟨hrem, hend, hsr⟩ := seg_split h hK
  have hlen : hi - lo = (S.length : Int) := by have := h.1; omega
  have hdm := Nat.div_add_mod S.length K
  have hml := Nat.mod_lt S.length hK
  obtain ⟨s, e1, _, h3⟩ := forS_inv (lo := lo) (hi := lo + ((K * (S.length / K) : Nat) : Int))
    (K := K) (k := S.length / K) hK rfl
    (f := fun idx (s : V.σ) => do
      let L ← trsvLanes cj K base a icol inc x idx
      some (V.fma L s)) (s := V.zero)
    (P := fun k s => Inv s ∧ V.hsum s = lsum cj (S.take (K * k)) g)
    ⟨i0, by simp [i1, lsum]⟩ (by
      rintro k v hk ⟨p1, p2⟩
      have hle : K * (k + 1) ≤ K * (S.length / K) := Nat.mul_le_mul_left K hk
      rw [Nat.mul_succ] at hle
      have hq : K * k + K ≤ S.length := by omega
      have htake : S.take (K * (k + 1)) = S.take (K * k) ++ (S.drop (K * k)).take K := by
        rw [Nat.mul_succ, List.take_add]
      obtain ⟨j1, j2⟩ := i2 (((S.drop (K * k)).take K).map fun e => (cj e.2, g e.1.toNat)) v
          (by simp; omega) p1
      refine ⟨V.fma (((S.drop (K * k)).take K).map fun e => (cj e.2, g e.1.toNat)) v,
        ?_, j1, ?_⟩
      · rw [trsvLanes_seg cj h hx hr hq]
        rfl
      · rw [j2, htake, lsum_append, p2]
        simp only [lsum, List.map_map, Function.comp_def])
  have hS : S = S.take (K * (S.length / K)) ++ S.drop (K * (S.length / K)) :=
    (List.take_append_drop _ _).symm
  have hx1 : (if hi - lo - (K : Int) ≥ 0 then xi - V.hsum s else xi)
      = xi - lsum cj (S.take (K * (S.length / K))) g := by
    split
    · rw [h3]
    · rw [Nat.div_eq_of_lt (by omega)]
      simp [lsum]
  have hr' : ∀ e ∈ S.drop (K * (S.length / K)), 0 ≤ e.1 ∧ e.1 < (m : Int) :=
    fun e he => hr e (List.mem_of_mem_drop he)
  unfold ktRowDot
  simp only [hrem, hend]
  rw [e1]
  simp only [Option.bind_eq_bind, Option.bind_some]
  rw [hx1]
  have hfin : xi - lsum cj (S.take (K * (S.length / K))) g
      - lsum cj (S.drop (K * (S.length / K))) g = xi - lsum cj S g := by
    rw [sub_sub, ← lsum_append, ← hS]
  split
  · next hc =>
    have hq : K * (S.length / K) + (K - 1) ≤ S.length := by omega
    rw [trsvLanes_seg cj h hx hr hq, Option.bind_some]
    have hdl : (S.drop (K * (S.length / K))).length = K - 1 := by
      rw [List.length_drop]; omega
    rw [List.take_of_length_le (l := S.drop (K * (S.length / K))) (by omega)]
    obtain ⟨-, j2⟩ := i2 ((S.drop (K * (S.length / K))).map (fun e => (cj e.2, g e.1.toNat))
      ++ [(0, 0)]) V.zero (by rw [List.length_append, List.length_map, hdl]; simp; omega) i0
    rw [j2, i1, ← hfin]
    simp [lsum, Function.comp_def]
  · rw [sub_seg cj hsr hx hr', hfin]

/-! propagation of a solved component -/

/-- what the entries `S` subtract -/
def propG (cj : R → R) (S : List (Int × R)) (y : R) (g : Nat → R) : Nat → R :=
  fun j => g j - (S.map fun e => if (j : Int) = e.1 then cj e.2 else 0).sum * y

theorem propG_eq (cj : R →+ R) (S : List (Int × R)) (y : R) (g : Nat → R) (j : Nat) :
    propG cj S y g j = g j - cj (colSum S j) * y := by
  unfold propG
  rw [sum_ite_filter S cj j]
  rfl

theorem propG_append (cj : R → R) (S T : List (Int × R)) (y : R) (g : Nat → R) :
    propG cj (S ++ T) y g = propG cj T y (propG cj S y g) := by
  funext j
  simp only [propG, List.map_append, List.sum_append]
  ring

theorem propG_nil (cj : R → R) (y : R) (g : Nat → R) : propG cj [] y g = g := by
  funext j; simp [propG]

theorem propG_single (cj : R → R) (e : Int × R) (h0 : 0 ≤ e.1) (y : R) (g : Nat → R) :
    propG cj [e] y g = Function.update g e.1.toNat (g e.1.toNat - cj e.2 * y) := by
  funext j
  by_cases hj : j = e.1.toNat
  · subst hj
    rw [Function.update_self]
    simp only [propG, List.map_cons, List.map_nil, List.sum_cons, List.sum_nil, add_zero]
    rw [if_pos (by omega)]
  · rw [Function.update_of_ne hj]
    simp only [propG, List.map_cons, List.map_nil, List.sum_cons, List.sum_nil, add_zero]
    rw [if_neg (by omega), zero_mul, sub_zero]

theorem propG_absent (cj : R → R) {S : List (Int × R)} (y : R) (g : Nat → R) {j : Nat}
    (h : ∀ e ∈ S, e.1 ≠ (j : Int)) : propG cj S y g j = g j := by
  unfold propG
  rw [List.map_congr_left (g := fun _ => (0 : R)) (fun e he => if_neg (Ne.symm (h e he)))]
  simp

theorem refProp_seg (cj : R → R) (h : Seg icol a base lo hi S) (hinc : 0 < inc)
    (hx : SVec x0 x inc m g) (hr : ∀ e ∈ S, 0 ≤ e.1 ∧ e.1 < m) {i : Nat} (him : i < m)
    (hi' : ∀ e ∈ S, e.1 ≠ (i : Int)) :
    ∃ x', forC lo hi (refProp cj base a icol inc i) x = some x' ∧
      SVec x0 x' inc m (propG cj S (g i) g) := by
  have := h.forC (σ := List R) (fun c v x => (rd x (c * inc - base * inc)).bind fun xc =>
    (rd x (i * inc)).bind fun xi => wr x (c * inc - base * inc) (xc - cj v * xi)) x
  suffices hs : ∃ x', S.foldlM (fun x e => (rd x ((e.1 + base) * inc - base * inc)).bind fun xc =>
      (rd x ((i : Int) * inc)).bind fun xi =>
        wr x ((e.1 + base) * inc - base * inc) (xc - cj e.2 * xi)) x = some x' ∧
      SVec x0 x' inc m (propG cj S (g i) g) by
    obtain ⟨x', e1, e2⟩ := hs
    exact ⟨x', Eq.trans (Eq.trans rfl this) e1, e2⟩
  clear this h
  induction S generalizing x g with
  | nil => exact ⟨x, rfl, by rw [propG_nil]; exact hx⟩
  | cons e S ih =>
    have he := hr e (by simp)
    obtain ⟨x1, e1, h1⟩ := hx.wrc hinc he.1 he.2 base (g e.1.toNat - cj e.2 * g i)
    obtain ⟨x2, e2, h2⟩ := ih h1 (fun e he => hr e (by simp [he])) (fun e he => hi' e (by simp [he]))
    have hne : i ≠ e.1.toNat := by
      have := hi' e (by simp); omega
    rw [Function.update_of_ne hne] at h2
    refine ⟨x2, ?_, ?_⟩
    · rw [List.foldlM_cons, hx.rdc he.1 he.2 base, hx.rd him]
      simp only [Option.bind_eq_bind, Option.bind_some, e1]
      exact e2
    · rw [show e :: S = [e] ++ S from rfl, propG_append, propG_single cj e he.1]
      exact h2

theorem ktProp1_seg (cj : R → R) (h : Seg icol a base lo hi S) (hinc : 0 < inc)
    (hx : SVec x0 x inc m g) (hr : ∀ e ∈ S, 0 ≤ e.1 ∧ e.1 < m) (y : R) :
    ∃ x', forC lo hi (ktProp1 cj base a icol inc y) x = some x' ∧
      SVec x0 x' inc m (propG cj S y g) := by
  have := h.forC (σ := List R) (fun c v x => (rd x (c * inc - base * inc)).bind fun xc =>
    wr x (c * inc - base * inc) (xc - cj v * y)) x
  suffices hs : ∃ x', S.foldlM (fun x e => (rd x ((e.1 + base) * inc - base * inc)).bind fun xc =>
        wr x ((e.1 + base) * inc - base * inc) (xc - cj e.2 * y)) x = some x' ∧
      SVec x0 x' inc m (propG cj S y g) by
    obtain ⟨x', e1, e2⟩ := hs
    exact ⟨x', Eq.trans (Eq.trans rfl this) e1, e2⟩
  clear this h
  induction S generalizing x g with
  | nil => exact ⟨x, rfl, by rw [propG_nil]; exact hx⟩
  | cons e S ih =>
    have he := hr e (by simp)
    obtain ⟨x1, e1, h1⟩ := hx.wrc hinc he.1 he.2 base (g e.1.toNat - cj e.2 * y)
    obtain ⟨x2, e2, h2⟩ := ih h1 (fun e he => hr e (by simp [he]))
    refine ⟨x2, ?_, ?_⟩
    · rw [List.foldlM_cons, hx.rdc he.1 he.2 base]
      simp only [Option.bind_eq_bind, Option.bind_some, e1]
      exact e2
    · rw [show e :: S = [e] ++ S from rfl, propG_append, propG_single cj e he.1]
      exact h2

/-- gather, update and scatter of `K` distinct entries -/
theorem ktScat_seg (cj : R → R) (h : Seg icol a base lo hi S) (hinc : 0 < inc)
    (hx : SVec x0 x inc m g) (hr : ∀ e ∈ S, 0 ≤ e.1 ∧ e.1 < m) (hnd : (S.map (·.1)).Nodup)
    {q K : Nat} (hq : q + K ≤ S.length) (y : R) :
    ∃ x', ktScat cj K base a icol inc (-y) (lo + q) x = some x' ∧
      SVec x0 x' inc m (propG cj ((S.drop q).take K) y g) := by
  unfold ktScat
  rw [trsvLanes_seg cj h hx hr hq]
  simp only [Option.bind_eq_bind, Option.bind_some, List.map_map, Function.comp_def]
  have hlen : ((S.drop q).take K).length = K := by simp; omega
  obtain ⟨x', e, hp⟩ := forC_inv_nat (n := K) (s := x)
    (f := fun l x => (rd icol (lo + (q : Int) + l - base)).bind fun c =>
      (rd (((S.drop q).take K).map fun e => cj e.2 * -y + g e.1.toNat) l).bind fun w =>
        wr x (c * inc - base * inc) w)
    (P := fun l x => SVec x0 x inc m (propG cj (((S.drop q).take K).take l) y g))
    (by rw [List.take_zero, propG_nil]; exact hx) (by
      intro l x hl hp
      have hlt : q + l < S.length := by omega
      have hlt' : l < ((S.drop q).take K).length := by omega
      have hg : ((S.drop q).take K)[l] = S[q + l] := by simp
      obtain ⟨e1, _⟩ := h.2 (q + l) hlt
      have hrr := hr _ (List.getElem_mem hlt)
      obtain ⟨x', e2, h2⟩ := hp.wrc hinc hrr.1 hrr.2 base
        (cj S[q + l].2 * -y + g S[q + l].1.toNat)
      refine ⟨x', ?_, ?_⟩
      · rw [show lo + (q : Int) + (l : Int) - base = lo - base + ((q + l : Nat) : Int)
          by push_cast; ring, e1, rd_ofNat, List.getElem?_map, List.getElem?_eq_getElem hlt']
        simp only [hg, Option.map_some, Option.bind_some]
        exact e2
      · rw [List.take_succ, List.getElem?_eq_getElem hlt', hg, propG_append]
        simp only [Option.toList_some]
        rw [propG_single cj _ hrr.1]
        have hab : propG cj (((S.drop q).take K).take l) y g S[q + l].1.toNat
            = g S[q + l].1.toNat := by
          apply propG_absent
          intro e he hee
          obtain ⟨t, ht, rfl⟩ := List.mem_iff_getElem.mp he
          simp only [List.length_take, List.length_drop] at ht
          rw [Int.toNat_of_nonneg hrr.1] at hee
          have hgt : (((S.drop q).take K).take l)[t] = S[q + t] := by simp
          rw [hgt] at hee
          have := (List.nodup_iff_injective_getElem.mp hnd)
            (a₁ := ⟨q + t, by simp; omega⟩) (a₂ := ⟨q + l, by simp; omega⟩) (by simpa using hee)
          simp only [Fin.mk.injEq] at this
          omega
        rw [hab]
        refine h2.congr (fun j _ => ?_)
        congr 1
        ring)
  rw [List.take_of_length_le (by omega)] at hp
  exact ⟨x', e, hp⟩

theorem ktRowScat_spec (cj : R → R) {K : Nat} (hK : 0 < K) (h : Seg icol a base lo hi S)
    (hinc : 0 < inc) (hx : SVec x0 x inc m g) (hr : ∀ e ∈ S, 0 ≤ e.1 ∧ e.1 < m)
    (hnd : (S.map (·.1)).Nodup) (y : R) :
    ∃ x', ktRowScat cj K base a icol inc lo hi y x = some x' ∧
      SVec x0 x' inc m (propG cj S y g) := by
  obtain ⟨hrem, hend, hsr⟩ := seg_split h hK
  have hdm := Nat.div_add_mod S.length K
  have hml := Nat.mod_lt S.length hK
  obtain ⟨x1, e1, h1⟩ := forS_inv (lo := lo) (hi := lo + ((K * (S.length / K) : Nat) : Int))
    (K := K) (k := S.length / K) hK rfl
    (f := ktScat cj K base a icol inc (-y)) (s := x)
    (P := fun k x => SVec x0 x inc m (propG cj (S.take (K * k)) y g))
    (by rw [Nat.mul_zero, List.take_zero, propG_nil]; exact hx) (by
      intro k x hk hp
      have hle : K * (k + 1) ≤ K * (S.length / K) := Nat.mul_le_mul_left K hk
      rw [Nat.mul_succ] at hle
      have hq : K * k + K ≤ S.length := by omega
      have htake : S.take (K * (k + 1)) = S.take (K * k) ++ (S.drop (K * k)).take K := by
        rw [Nat.mul_succ, List.take_add]
      obtain ⟨x', e, h2⟩ := ktScat_seg cj h hinc hp hr hnd hq y
      refine ⟨x', e, ?_⟩
      rw [htake, propG_append]
      exact h2)
  have hS : S = S.take (K * (S.length / K)) ++ S.drop (K * (S.length / K)) :=
    (List.take_append_drop _ _).symm
  have hfin : propG cj (S.drop (K * (S.length / K))) y (propG cj (S.take (K * (S.length / K))) y g)
      = propG cj S y g := by
    rw [← propG_append, ← hS]
  unfold ktRowScat
  simp only [hrem, hend]
  rw [e1]
  simp only [Option.bind_eq_bind, Option.bind_some]
  rw [← hfin]
  split
  · next hc =>
    have hq : K * (S.length / K) + (K - 1) ≤ S.length := by omega
    obtain ⟨x', e, h2⟩ := ktScat_seg cj h hinc h1 hr hnd hq y
    refine ⟨x', e, ?_⟩
    rwa [List.take_of_length_le (by rw [List.length_drop]; omega)] at h2
  · exact ktProp1_seg cj hsr hinc h1 (fun e he => hr e (List.mem_of_mem_drop he)) y

theorem trsvDiv_spec (cj : R → R) (unit : Bool) {d : Int} {v : R}
    (hv : rd a (d - base) = some v) (hinc : 0 < inc) (hx : SVec x0 x inc m g) {i : Nat}
    (him : i < m) :
    ∃ x', trsvDiv cj base a unit d i inc x = some x' ∧
      SVec x0 x' inc m (Function.update g i (g i / if unit then 1 else cj v)) := by
  unfold trsvDiv
  cases unit
  · simp only [Bool.false_eq_true, if_false, hv, hx.rd him, Option.bind_eq_bind, Option.bind_some]
    exact hx.wr hinc him _
  · refine ⟨x, rfl, hx.congr (fun j _ => ?_)⟩
    by_cases hj : j = i
    · subst hj; simp
    · rw [Function.update_of_ne hj]

theorem trsvInit_spec (alpha : R) {b : List R} {incb : Nat} (hinc : 0 < inc)
    (hb : ∀ i, i < m → i * incb < b.length) (hx : SVec x0 x inc m g) :
    ∃ x', trsvInit alpha m b incb x inc = some x' ∧
      SVec x0 x' inc m (fun i => alpha * b.getD (i * incb) 0) := by
  obtain ⟨x', e, hp⟩ := forC_inv_nat (n := m) (s := x)
    (f := fun i x => (rd b (i * incb)).bind fun bi => wr x (i * inc) (alpha * bi))
    (P := fun t x => SVec x0 x inc m (fun i => if i < t then alpha * b.getD (i * incb) 0 else g i))
    (by simpa using hx) (by
      intro i x hi hp
      obtain ⟨x', e, h⟩ := hp.wr hinc hi (alpha * b.getD (i * incb) 0)
      refine ⟨x', ?_, h.congr ?_⟩
      · rw [show (i : Int) * incb = ((i * incb : Nat) : Int) by push_cast; rfl,
          rd_getD_lt (hb i hi), Option.bind_some]
        exact e
      · intro j _
        by_cases hj : j = i
        · subst hj; simp
        · rw [Function.update_of_ne hj]
          have : j < i + 1 ↔ j < i := by omega
          simp [this])
  exact ⟨x', e, hp.congr (fun i hi => by rw [if_pos hi])⟩

end

end Verif
