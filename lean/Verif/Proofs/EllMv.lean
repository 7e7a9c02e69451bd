/-
ELL matrix-vector kernels: proofs.
-/
import Verif.Proofs.Ell
import Verif.Proofs.MvLemmas
import Verif.Model.EllMv

namespace Verif
open Model Finset

variable {R : Type} [Semiring R] [DecidableEq R]

/-- contribution of position `t` of a row -/
def rowF (row : List (Int × R)) (x : List R) (t : Nat) : R :=
  match row[t]? with
  | some e => e.2 * x.getD e.1.toNat 0
  | none => 0

theorem rowF_of_lt {row : List (Int × R)} {x : List R} {t : Nat} (h : t < row.length) :
    rowF row x t = row[t].2 * x.getD row[t].1.toNat 0 := by simp [rowF, h]

theorem rowF_of_ge {row : List (Int × R)} {x : List R} {t : Nat} (h : row.length ≤ t) :
    rowF row x t = 0 := by simp [rowF, h]

theorem sum_rowF (row : List (Int × R)) (x : List R) {w : Nat} (h : row.length ≤ w) :
    ∑ t ∈ range w, rowF row x t = (row.map fun e => e.2 * x.getD e.1.toNat 0).sum := by
  rw [list_sum_range row _ (rowF row x) (fun t ht => (rowF_of_lt ht).symm)]
  symm
  apply sum_subset
  · intro t; simp; omega
  · intro t _ ht
    exact rowF_of_ge (by simpa using ht)

theorem rd_x {x : List R} {n : Nat} (hx : n ≤ x.length) {c : Int} (h0 : 0 ≤ c) (h1 : c < n) :
    rd x c = some (x.getD c.toNat 0) := by
  rw [rd_eq h0, List.getD_eq_getElem?_getD, List.getElem?_eq_getElem (by omega)]
  simp

section content
variable {m w n : Nat} {off : Nat → Nat → Nat} {base : Int} {pad : Nat → Int}
  {rows : Nat → List (Int × R)} {ec : List Int} {ev x : List R}

theorem content_data (hc : EllContent m w off base pad rows ec ev) (hx : n ≤ x.length)
    (hr : ∀ i, i < m → ∀ e ∈ rows i, 0 ≤ e.1 ∧ e.1 < n)
    {i t : Nat} (hi : i < m) (ht : t < (rows i).length) :
    ∃ c v xv, rd ec (off i t : Int) = some c ∧ 0 ≤ c - base ∧ rd ev (off i t : Int) = some v ∧
      rd x (c - base) = some xv ∧ v * xv = rowF (rows i) x t := by
  obtain ⟨h1, h2⟩ := hc.data i t hi ht
  have := hr i hi _ (List.getElem_mem ht)
  refine ⟨_, _, x.getD (rows i)[t].1.toNat 0, by rw [rd_ofNat]; exact h1, by omega,
    by rw [rd_ofNat]; exact h2, ?_, (rowF_of_lt ht).symm⟩
  rw [show (rows i)[t].1 + base - base = (rows i)[t].1 by omega]
  exact rd_x hx this.1 this.2

theorem content_term (hc : EllContent m w off base pad rows ec ev) (hx : n ≤ x.length)
    (hr : ∀ i, i < m → ∀ e ∈ rows i, 0 ≤ e.1 ∧ e.1 < n)
    {i t : Nat} (hi : i < m) (ht : t < (rows i).length) :
    term ec ev x base (off i t : Int) = some (rowF (rows i) x t) := by
  obtain ⟨c, v, xv, h1, _, h2, h3, h4⟩ := content_data hc hx hr hi ht
  rw [term_some h1 h2 h3, h4]

/-- padding cells contribute nothing when their index is in range -/
theorem content_term_pad (hc : EllContent m w off base pad rows ec ev) (hx : n ≤ x.length)
    (hr : ∀ i, i < m → ∀ e ∈ rows i, 0 ≤ e.1 ∧ e.1 < n)
    (hp : ∀ i, i < m → (rows i).length < w → 0 ≤ pad i - base ∧ pad i - base < n)
    {i t : Nat} (hi : i < m) (ht : t < w) :
    term ec ev x base (off i t : Int) = some (rowF (rows i) x t) := by
  by_cases h : t < (rows i).length
  · exact content_term hc hx hr hi h
  · obtain ⟨h1, h2⟩ := hc.padding i t hi (by omega) ht
    have := hp i hi (by omega)
    rw [rowF_of_ge (by omega)]
    rw [term_some (c := pad i) (v := 0) (xv := x.getD (pad i - base).toNat 0)
      (by rw [rd_ofNat]; exact h1) (by rw [rd_ofNat]; exact h2) (rd_x hx this.1 this.2)]
    rw [zero_mul]

end content

section ell
variable {m w n : Nat} {base : Int} {pad : Nat → Int}
  {rows : Nat → List (Int × R)} {ec : List Int} {ev x : List R}

theorem ellRowRef_spec (hc : EllContent m w (fun i t => i * w + t) base pad rows ec ev)
    (hx : n ≤ x.length) (hr : ∀ i, i < m → ∀ e ∈ rows i, 0 ≤ e.1 ∧ e.1 < n)
    (hp : ∀ i, pad i - base < 0) {i : Nat} (hi : i < m) (hl : (rows i).length ≤ w) :
    ellRowRef w base ec ev x i = some (∑ t ∈ range (rows i).length, rowF (rows i) x t) := by
  unfold ellRowRef
  rcases forE_inv (lo := 0) (hi := (w : Int)) (s := (0 : R)) (ε := R)
    (f := fun p res => do
      let idx := (i : Int) * w + p
      let c ← rd ec idx
      let col := c - base
      if col ≥ 0 then do
        let v ← rd ev idx
        let xv ← rd x col
        some (.ok (res + v * xv))
      else some (.error res))
    (P := fun p s => ∃ q : Nat, (q : Int) = p ∧ q ≤ (rows i).length ∧
      s = ∑ t ∈ range q, rowF (rows i) x t)
    (Q := fun e => e = ∑ t ∈ range (rows i).length, rowF (rows i) x t)
    (by omega) ⟨0, by simp⟩ (by
      rintro p s h0 h1 ⟨q, rfl, hq, hs⟩
      have hcast : (i : Int) * w + (q : Int) = ((i * w + q : Nat) : Int) := by push_cast; ring
      by_cases hlt : q < (rows i).length
      · obtain ⟨c, v, xv, e1, e2, e3, e4, e5⟩ := content_data hc hx hr hi hlt
        left
        refine ⟨s + v * xv, ?_, q + 1, by omega, by omega, ?_⟩
        · simp only [hcast, e1, e3, e4, Option.bind_eq_bind, Option.bind_some, ge_iff_le, e2,
            if_true]
        · rw [sum_range_succ, hs, e5]
      · right
        have hqe : q = (rows i).length := by omega
        obtain ⟨h1', -⟩ := hc.padding i q hi (by omega) (by omega)
        refine ⟨s, ?_, by rw [hs, hqe]⟩
        have : ¬ (0 ≤ pad i - base) := by have := hp i; omega
        simp only [hcast, rd_ofNat, h1', Option.bind_eq_bind, Option.bind_some, ge_iff_le, this,
          if_false]) with ⟨s, h1, q, h2, h3, h4⟩ | ⟨e, h1, h2⟩
  · rw [h1]
    simp only [Option.bind_eq_bind, Option.bind_some, unbreak]
    rw [h4, show q = (rows i).length by omega]
  · rw [h1]
    simp only [Option.bind_eq_bind, Option.bind_some, unbreak]
    rw [h2]

theorem ellRemLoop_spec (hc : EllContent m w (fun i t => i * w + t) base pad rows ec ev)
    (hx : n ≤ x.length) (hr : ∀ i, i < m → ∀ e ∈ rows i, 0 ≤ e.1 ∧ e.1 < n)
    (hp : ∀ i, pad i - base < 0) {i : Nat} (hi : i < m) {q k : Nat}
    (hq : q ≤ (rows i).length) (hqw : q + k ≤ w) (hk : (rows i).length ≤ q + k) :
    ∃ o, ellRemLoop base ec ev x k (∑ t ∈ range q, rowF (rows i) x t) ((i * w + q : Nat) : Int)
        = some o ∧ (unbreak o).1 = ∑ t ∈ range (rows i).length, rowF (rows i) x t := by
  unfold ellRemLoop
  rcases forE_inv (lo := 0) (hi := (k : Int)) (ε := R × Int)
    (s := (∑ t ∈ range q, rowF (rows i) x t, ((i * w + q : Nat) : Int)))
    (f := fun _ (r : R × Int) => do
      let c ← rd ec r.2
      let col := c - base
      if col ≥ 0 then do
        let v ← rd ev r.2
        let xv ← rd x col
        some (.ok (r.1 + v * xv, r.2 + 1))
      else some (.error r))
    (P := fun p s => ∃ j : Nat, (j : Int) = p ∧ q + j ≤ (rows i).length ∧
      s = (∑ t ∈ range (q + j), rowF (rows i) x t, ((i * w + (q + j) : Nat) : Int)))
    (Q := fun e => e.1 = ∑ t ∈ range (rows i).length, rowF (rows i) x t)
    (by omega) ⟨0, by simpa using hq⟩ (by
      rintro p s h0 h1 ⟨j, rfl, hj, rfl⟩
      by_cases hlt : q + j < (rows i).length
      · obtain ⟨c, v, xv, e1, e2, e3, e4, e5⟩ := content_data hc hx hr hi hlt
        left
        refine ⟨(∑ t ∈ range (q + j), rowF (rows i) x t + v * xv, ((i * w + (q + j) : Nat) : Int) + 1),
          ?_, j + 1, by omega, by omega, ?_⟩
        · simp only [e1, e3, e4, Option.bind_eq_bind, Option.bind_some, ge_iff_le, e2, if_true]
        · rw [← Nat.add_assoc q, sum_range_succ, e5]
          push_cast
          simp [add_assoc]
      · right
        have hqe : q + j = (rows i).length := by omega
        obtain ⟨h1', -⟩ := hc.padding i (q + j) hi (by omega) (by omega)
        refine ⟨(∑ t ∈ range (q + j), rowF (rows i) x t, ((i * w + (q + j) : Nat) : Int)), ?_,
          by simp only [hqe]⟩
        have : ¬ (0 ≤ pad i - base) := by have := hp i; omega
        simp only [rd_ofNat, h1', Option.bind_eq_bind, Option.bind_some, ge_iff_le, this,
          if_false]) with ⟨s, h1, j, h2, h3, h4⟩ | ⟨e, h1, h2⟩
  · refine ⟨_, h1, ?_⟩
    simp only [unbreak, h4]
    rw [show q + j = (rows i).length by omega]
  · exact ⟨_, h1, h2⟩

theorem ellRowAvx2_spec (hc : EllContent m w (fun i t => i * w + t) base pad rows ec ev)
    (hx : n ≤ x.length) (hr : ∀ i, i < m → ∀ e ∈ rows i, 0 ≤ e.1 ∧ e.1 < n)
    (hp : ∀ i, pad i - base < 0) {i : Nat} (hi : i < m) (hl : (rows i).length ≤ w) :
    ellRowAvx2 w base ec ev x i = some (∑ t ∈ range (rows i).length, rowF (rows i) x t) := by
  unfold ellRowAvx2
  have e1 : ((w : Int)).tdiv 4 = ((w / 4 : Nat) : Int) := by
    rw [Int.tdiv_eq_ediv_of_nonneg (by omega)]; omega
  have e2 : ((w : Int)).tmod 4 = ((w % 4 : Nat) : Int) := by
    rw [Int.tmod_eq_emod_of_nonneg (by omega)]; omega
  have key : (∃ s, ellVecLoop w base ec ev x i = some (.ok s) ∧
        4 * (w / 4) ≤ (rows i).length ∧ s.2 = ((i * w + 4 * (w / 4) : Nat) : Int) ∧
        hsum4 s.1 = ∑ t ∈ range (4 * (w / 4)), rowF (rows i) x t) ∨
      (∃ s, ellVecLoop w base ec ev x i = some (.error s) ∧ ∃ k, k < w / 4 ∧
        4 * k ≤ (rows i).length ∧ (rows i).length < 4 * k + 4 ∧
        s.2 = ((i * w + 4 * k : Nat) : Int) ∧
        hsum4 s.1 = ∑ t ∈ range (4 * k), rowF (rows i) x t) := by
    unfold ellVecLoop
    rw [e1]
    rcases forE_inv (lo := 0) (hi := ((w / 4 : Nat) : Int)) (ε := (R × R × R × R) × Int)
      (s := (((0, 0, 0, 0), (i : Int) * w) : (R × R × R × R) × Int))
      (f := fun _ (s : (R × R × R × R) × Int) => do
        let c ← rd ec (s.2 + 3)
        if c - base ≥ 0 then do
          let v ← fma4 ec ev x base s.2 s.1
          some (.ok (v, s.2 + 4))
        else some (.error s))
      (P := fun p s => ∃ k : Nat, (k : Int) = p ∧ 4 * k ≤ (rows i).length ∧
        s.2 = ((i * w + 4 * k : Nat) : Int) ∧
        hsum4 s.1 = ∑ t ∈ range (4 * k), rowF (rows i) x t)
      (Q := fun s => ∃ k, k < w / 4 ∧
        4 * k ≤ (rows i).length ∧ (rows i).length < 4 * k + 4 ∧
        s.2 = ((i * w + 4 * k : Nat) : Int) ∧
        hsum4 s.1 = ∑ t ∈ range (4 * k), rowF (rows i) x t)
      (by omega) ⟨0, by simp [hsum4]⟩ (by
        rintro p ⟨v, pos⟩ h0 h1 ⟨k, rfl, hk, hpos, hv⟩
        simp only at hpos hv
        have hcast : pos + 3 = ((i * w + (4 * k + 3) : Nat) : Int) := by rw [hpos]; push_cast; ring
        by_cases hlt : 4 * k + 3 < (rows i).length
        · left
          obtain ⟨c, _, _, g1, g2, -⟩ := content_data hc hx hr hi hlt
          obtain ⟨v', g3, g4⟩ := fma4_spec (ind := ec) (val := ev) (x := x) (base := base)
            (p := pos) (v := v) (f := fun t => rowF (rows i) x (4 * k + t)) (by
              intro t ht
              have := content_term hc hx hr hi (t := 4 * k + t) (by omega)
              rw [← this, hpos]
              congr 1
              push_cast; ring)
          refine ⟨(v', pos + 4), ?_, k + 1, by omega, by omega, ?_, ?_⟩
          · simp only [hcast, g1, g3, Option.bind_eq_bind, Option.bind_some, ge_iff_le, g2,
              if_true]
          · simp only [hpos]; push_cast; ring
          · simp only
            rw [g4, hv, sum_range_four]
            simp
        · right
          obtain ⟨h1', -⟩ := hc.padding i (4 * k + 3) hi (by omega) (by omega)
          have : ¬ (0 ≤ pad i - base) := by have := hp i; omega
          refine ⟨(v, pos), ?_, k, by omega, hk, by omega, hpos, hv⟩
          simp only [hcast, rd_ofNat, h1', Option.bind_eq_bind, Option.bind_some, ge_iff_le, this,
            if_false]) with ⟨s, h1, k, h2, h3, h4, h5⟩ | ⟨e, h1, h2⟩
    · left
      obtain rfl : k = w / 4 := by omega
      exact ⟨s, h1, h3, h4, h5⟩
    · right
      exact ⟨e, h1, h2⟩
  rw [e1, e2]
  rcases key with ⟨s, h1, h2, h3, h4⟩ | ⟨s, h1, k, h0, h2, h2', h3, h4⟩
  · rw [h1]
    simp only [Option.bind_eq_bind, Option.bind_some, unbreak]
    have hres : (if ((w / 4 : Nat) : Int) ≠ 0 then hsum4 s.1 else 0)
        = ∑ t ∈ range (4 * (w / 4)), rowF (rows i) x t := by
      by_cases hz : w / 4 = 0
      · simp [hz]
      · rw [if_pos (by exact_mod_cast hz), h4]
    rw [hres, h3]
    obtain ⟨o, g1, g2⟩ := ellRemLoop_spec hc hx hr hp hi (q := 4 * (w / 4)) (k := w % 4) h2
      (by omega) (by omega)
    rw [g1]
    simp only [Option.bind_some, g2]
    exact congrArg some g2
  · rw [h1]
    simp only [Option.bind_eq_bind, Option.bind_some, unbreak]
    rw [if_pos (by omega), h4, h3]
    obtain ⟨o, g1, g2⟩ := ellRemLoop_spec hc hx hr hp hi (q := 4 * k) (k := 4) h2
      (by omega) (by omega)
    rw [show ((4 : Nat) : Int) = 4 by rfl] at g1
    rw [g1]
    simp only [Option.bind_some]
    exact congrArg some g2

end ell

/-! ### ELLT -/

/-- a loop over a list of distinct rows, each updating its own cell -/
theorem rows_list_spec {α : Type} {y : List α} {len : Nat} {f : Nat → α} (hy : Rep y len f)
    (L : List Nat) (hn : L.Nodup) (g : Nat → α → α)
    (body : Int → List α → Option (List α))
    (hb : ∀ (i : Nat) (hi : i < L.length) y f', Rep y len f' → f' L[i] = f L[i] →
      ∃ y', body i y = some y' ∧ Rep y' len (Function.update f' L[i] (g L[i] (f L[i])))) :
    ∃ y', forC 0 (L.length : Int) body y = some y' ∧
      Rep y' len (fun k => if k ∈ L then g k (f k) else f k) := by
  obtain ⟨s, h1, h2⟩ := forC_inv_nat (n := L.length) (f := body) (s := y)
    (P := fun i s => Rep s len (fun k => if k ∈ L.take i then g k (f k) else f k))
    (by simpa using hy) (by
    intro i s hi hs
    have hnot : L[i] ∉ L.take i := by
      intro hm
      rw [List.mem_take_iff_getElem] at hm
      obtain ⟨j, hj, he⟩ := hm
      have := (List.Nodup.getElem_inj_iff hn).1 he
      omega
    obtain ⟨y', h1, h2⟩ := hb i hi s _ hs (by simp [hnot])
    refine ⟨y', h1, h2.congr ?_⟩
    intro k _
    have hmem : k ∈ L.take (i + 1) ↔ k ∈ L.take i ∨ k = L[i] := by
      rw [List.take_succ_eq_append_getElem hi, List.mem_append, List.mem_singleton]
    by_cases hk : k = L[i]
    · rw [if_pos (hmem.2 (.inr hk))]; rw [hk]; simp
    · rw [Function.update_of_ne hk]
      by_cases hk2 : k ∈ L.take i
      · rw [if_pos hk2, if_pos (hmem.2 (.inl hk2))]
      · rw [if_neg hk2, if_neg (fun h => (hmem.1 h).elim hk2 hk)])
  exact ⟨s, h1, by simpa using h2⟩

section ellt
variable {m w n : Nat} {base : Int} {pad : Nat → Int}
  {rows : Nat → List (Int × R)} {ec : List Int} {ev x : List R}

theorem elltRow_spec (hc : EllContent m w (fun i t => t * m + i) base pad rows ec ev)
    (hx : n ≤ x.length) (hr : ∀ i, i < m → ∀ e ∈ rows i, 0 ≤ e.1 ∧ e.1 < n)
    (hp : ∀ i, i < m → (rows i).length < w → 0 ≤ pad i - base ∧ pad i - base < n)
    {i : Nat} (hi : i < m) :
    elltRow m w base ec ev x i = some (∑ t ∈ range w, rowF (rows i) x t) := by
  unfold elltRow
  obtain ⟨s, h1, h2⟩ := forC_inv_nat (n := w)
    (f := fun j rd_ => (term ec ev x base (j * m + i)).bind fun t => some (rd_ + t))
    (s := (0 : R)) (P := fun k s => s = ∑ t ∈ range k, rowF (rows i) x t) (by simp) (by
      intro k s hk hs
      have := content_term_pad hc hx hr hp hi hk
      push_cast at this
      refine ⟨s + rowF (rows i) x k, by simp only [this, Option.bind_some], ?_⟩
      rw [sum_range_succ, hs])
  simp only [Option.bind_eq_bind]
  rw [h1, h2]

theorem elltVec_spec (hc : EllContent m w (fun i t => t * m + i) base pad rows ec ev)
    (hx : n ≤ x.length) (hr : ∀ i, i < m → ∀ e ∈ rows i, 0 ≤ e.1 ∧ e.1 < n)
    (hp : ∀ i, i < m → (rows i).length < w → 0 ≤ pad i - base ∧ pad i - base < n)
    {j : Nat} (hj : 4 * j + 3 < m) :
    forC 0 (w : Int) (fun i v => fma4 ec ev x base ((j : Int) * 4 + i * m) v) (0, 0, 0, 0)
      = some (∑ t ∈ range w, rowF (rows (4 * j)) x t, ∑ t ∈ range w, rowF (rows (4 * j + 1)) x t,
          ∑ t ∈ range w, rowF (rows (4 * j + 2)) x t,
          ∑ t ∈ range w, rowF (rows (4 * j + 3)) x t) := by
  obtain ⟨s, h1, h2⟩ := forC_inv_nat (n := w)
    (f := fun i v => fma4 ec ev x base ((j : Int) * 4 + i * m) v)
    (s := ((0, 0, 0, 0) : R × R × R × R))
    (P := fun k s => s = (∑ t ∈ range k, rowF (rows (4 * j)) x t,
      ∑ t ∈ range k, rowF (rows (4 * j + 1)) x t, ∑ t ∈ range k, rowF (rows (4 * j + 2)) x t,
      ∑ t ∈ range k, rowF (rows (4 * j + 3)) x t)) (by simp) (by
      rintro k s hk rfl
      have c0 := content_term_pad hc hx hr hp (i := 4 * j) (by omega) hk
      have c1 := content_term_pad hc hx hr hp (i := 4 * j + 1) (by omega) hk
      have c2 := content_term_pad hc hx hr hp (i := 4 * j + 2) (by omega) hk
      have c3 := content_term_pad hc hx hr hp (i := 4 * j + 3) (by omega) hk
      refine ⟨_, ?_, rfl⟩
      have e0 : (j : Int) * 4 + k * m = ((k * m + 4 * j : Nat) : Int) := by push_cast; ring
      have e1 : (j : Int) * 4 + k * m + 1 = ((k * m + (4 * j + 1) : Nat) : Int) := by
        push_cast; ring
      have e2 : (j : Int) * 4 + k * m + 2 = ((k * m + (4 * j + 2) : Nat) : Int) := by
        push_cast; ring
      have e3 : (j : Int) * 4 + k * m + 3 = ((k * m + (4 * j + 3) : Nat) : Int) := by
        push_cast; ring
      simp only [fma4, e1, e2, e3, c1, c2, c3, Option.bind_eq_bind, Option.bind_some]
      simp only [e0, c0, Option.bind_some, sum_range_succ]
      simp only [add_comm])
  rw [h1, h2]

end ellt

theorem storeRow4_spec {alpha beta : R} {r : R × R × R × R} {y : List R} {len : Nat} {f : Nat → R}
    (hy : Rep y len f) {j : Nat} (hj : j + 3 < len) :
    ∃ y', storeRow4 alpha beta r j y = some y' ∧
      Rep y' len (Function.update (Function.update (Function.update (Function.update f
        j (comb alpha beta r.1 (f j))) (j + 1) (comb alpha beta r.2.1 (f (j + 1))))
        (j + 2) (comb alpha beta r.2.2.1 (f (j + 2)))) (j + 3)
        (comb alpha beta r.2.2.2 (f (j + 3)))) := by
  have c1 : (j : Int) + 1 = ((j + 1 : Nat) : Int) := by push_cast; ring
  have c2 : (j : Int) + 2 = ((j + 2 : Nat) : Int) := by push_cast; ring
  have c3 : (j : Int) + 3 = ((j + 3 : Nat) : Int) := by push_cast; ring
  obtain ⟨y1, a1, b1⟩ := hy.wr_nat (comb alpha beta r.1 (f j)) (i := j) (by omega)
  obtain ⟨y2, a2, b2⟩ := b1.wr_nat (comb alpha beta r.2.1 (f (j + 1))) (i := j + 1) (by omega)
  obtain ⟨y3, a3, b3⟩ := b2.wr_nat (comb alpha beta r.2.2.1 (f (j + 2))) (i := j + 2) (by omega)
  obtain ⟨y4, a4, b4⟩ := b3.wr_nat (comb alpha beta r.2.2.2 (f (j + 3))) (i := j + 3) (by omega)
  refine ⟨y4, ?_, b4⟩
  unfold storeRow4
  rw [c1, c2, c3]
  have hr : (if alpha ≠ 1 then (alpha * r.1, alpha * r.2.1, alpha * r.2.2.1, alpha * r.2.2.2)
      else r) = (alpha * r.1, alpha * r.2.1, alpha * r.2.2.1, alpha * r.2.2.2) := by
    by_cases ha : alpha = 1 <;> simp [ha]
  simp only [hr]
  rw [comb_eq] at a1 a2 a3 a4
  by_cases hb : beta = 0
  · subst hb
    simp only [zero_mul, add_zero] at a1 a2 a3 a4
    simp only [ne_eq, not_true, if_false, Option.bind_eq_bind, Option.bind_some, a1, a2, a3, a4]
  · simp only [ne_eq, hb, not_false_iff, if_true, hy.rd_nat (i := j) (by omega),
      hy.rd_nat (i := j + 1) (by omega), hy.rd_nat (i := j + 2) (by omega),
      hy.rd_nat (i := j + 3) (by omega), Option.bind_eq_bind, Option.bind_some]
    rw [add_comm (alpha * _)] at a1 a2 a3 a4
    simp only [a1, a2, a3, a4, Option.bind_some]

section ellt
variable {m w n : Nat} {base : Int} {pad : Nat → Int}
  {rows : Nat → List (Int × R)} {ec : List Int} {ev x : List R}

theorem elltmvRef_spec (hc : EllContent m w (fun i t => t * m + i) base pad rows ec ev)
    (hx : n ≤ x.length) (hr : ∀ i, i < m → ∀ e ∈ rows i, 0 ≤ e.1 ∧ e.1 < n)
    (hp : ∀ i, i < m → (rows i).length < w → 0 ≤ pad i - base ∧ pad i - base < n)
    {alpha beta : R} {y : List R} {len : Nat} {f : Nat → R} (hy : Rep y len f) (hm : m ≤ len) :
    ∃ y', elltmvRef alpha m ev ec w base x beta y = some y' ∧
      Rep y' len (fun k => if k < m then
        comb alpha beta (∑ t ∈ range w, rowF (rows k) x t) (f k) else f k) := by
  unfold elltmvRef
  refine rows_spec hy hm (fun k => comb alpha beta (∑ t ∈ range w, rowF (rows k) x t)) _ ?_
  intro i y f hi hy
  rw [elltRow_spec hc hx hr hp hi]
  exact storeRow_spec hy (by omega)

theorem elltmvAvx2_spec (hc : EllContent m w (fun i t => t * m + i) base pad rows ec ev)
    (hx : n ≤ x.length) (hr : ∀ i, i < m → ∀ e ∈ rows i, 0 ≤ e.1 ∧ e.1 < n)
    (hp : ∀ i, i < m → (rows i).length < w → 0 ≤ pad i - base ∧ pad i - base < n)
    {alpha beta : R} {y : List R} {len : Nat} {f : Nat → R} (hy : Rep y len f) (hm : m ≤ len) :
    ∃ y', elltmvAvx2 alpha m ev ec w base x beta y = some y' ∧
      Rep y' len (fun k => if k < m then
        comb alpha beta (∑ t ∈ range w, rowF (rows k) x t) (f k) else f k) := by
  unfold elltmvAvx2
  have e1 : ((m : Int)).tdiv 4 = ((m / 4 : Nat) : Int) := by
    rw [Int.tdiv_eq_ediv_of_nonneg (by omega)]; omega
  rw [e1]
  obtain ⟨y1, h1, h2⟩ := forC_inv_nat (n := m / 4)
    (f := fun j y => do
      let joff := j * 4
      let res ← forC 0 (w : Int) (fun i v => fma4 ec ev x base (joff + i * m) v) (0, 0, 0, 0)
      storeRow4 alpha beta res joff y) (s := y)
    (P := fun j s => Rep s len (fun k => if k < 4 * j then
      comb alpha beta (∑ t ∈ range w, rowF (rows k) x t) (f k) else f k))
    (by simpa using hy) (by
      intro j s hj hs
      obtain ⟨y', g1, g2⟩ := storeRow4_spec (alpha := alpha) (beta := beta)
        (r := (∑ t ∈ range w, rowF (rows (4 * j)) x t, ∑ t ∈ range w, rowF (rows (4 * j + 1)) x t,
          ∑ t ∈ range w, rowF (rows (4 * j + 2)) x t,
          ∑ t ∈ range w, rowF (rows (4 * j + 3)) x t)) hs (j := 4 * j) (by omega)
      refine ⟨y', ?_, g2.congr ?_⟩
      · simp only [elltVec_spec hc hx hr hp (j := j) (by omega), Option.bind_eq_bind,
          Option.bind_some]
        rw [← g1]
        congr 1
        push_cast; ring
      · intro k _
        simp only [Function.update_apply]
        by_cases k3 : k = 4 * j + 3
        · subst k3; simp; intro hh; omega
        by_cases k2 : k = 4 * j + 2
        · subst k2; simp; intro hh; omega
        by_cases k1 : k = 4 * j + 1
        · subst k1; simp; intro hh; omega
        by_cases k0 : k = 4 * j
        · subst k0; simp
        rw [if_neg k3, if_neg k2, if_neg k1, if_neg k0]
        by_cases hk : k < 4 * j
        · rw [if_pos hk, if_pos (by omega)]
        · rw [if_neg hk, if_neg (by omega)])
  rw [h1]
  simp only [Option.bind_eq_bind, Option.bind_some]
  have e2 : ((m / 4 : Nat) : Int) * 4 = ((4 * (m / 4) : Nat) : Int) := by push_cast; ring
  rw [e2]
  obtain ⟨y2, g1, g2⟩ := rows_spec' h2 hm (lo := 4 * (m / 4)) (by omega)
    (fun k => comb alpha beta (∑ t ∈ range w, rowF (rows k) x t))
    (fun j y => (elltRow m w base ec ev x j).bind fun r => storeRow alpha beta r j y) (by
      intro i y f hi hy
      rw [elltRow_spec hc hx hr hp hi]
      exact storeRow_spec hy (by omega))
  refine ⟨y2, g1, g2.congr ?_⟩
  intro k _
  by_cases hk : k < 4 * (m / 4)
  · rw [if_neg (by omega), if_pos hk, if_pos (by omega)]
  · by_cases hk2 : k < m
    · rw [if_pos (by omega), if_neg hk, if_pos hk2]
    · rw [if_neg (by omega), if_neg hk, if_neg hk2]

end ellt

/-! ### Hybrid -/

theorem saveRows_spec {y : List R} {len : Nat} {f : Nat → R} (hy : Rep y len f) (L : List Nat)
    (rest : List Int) (hL : ∀ k ∈ L, k < len) :
    saveRows L.length (L.map (fun (k : Nat) => (k : Int)) ++ rest) y = some (L.map f) := by
  unfold saveRows
  obtain ⟨s, h1, h2⟩ := forC_inv_nat (n := L.length)
    (f := fun i t => (rd (L.map (fun (k : Nat) => (k : Int)) ++ rest) i).bind fun r =>
      (rd y r).bind fun v => some (t ++ [v])) (s := ([] : List R))
    (P := fun i s => s = (L.take i).map f) (by simp) (by
      rintro i s hi rfl
      have e1 : rd (L.map (fun (k : Nat) => (k : Int)) ++ rest) i = some (L[i] : Int) := by
        rw [rd_ofNat, List.getElem?_append_left (by simpa using hi)]
        simp [hi]
      refine ⟨_, ?_, rfl⟩
      rw [e1, Option.bind_some, hy.rd_nat (hL _ (List.getElem_mem hi)), Option.bind_some,
        List.take_succ_eq_append_getElem hi, List.map_append]
      rfl)
  simp only [Option.bind_eq_bind]
  rw [h1, h2, List.take_length]

theorem hyb_range {A : Csr R} (h : A.WF) (w : Nat) :
    ∀ i, i < A.m → ∀ e ∈ hybRow A w i, 0 ≤ e.1 ∧ e.1 < A.n := by
  intro i hi e he
  unfold hybRow at he
  split at he
  · simp at he
  · exact Csr.row_range h he

theorem hybMv_spec {A : Csr R} (h : A.WF) {w : Nat} {x : List R}
    {ell : List R → Option (List R)} {dot : Int → Int → Option R}
    {alpha beta : R} {y : List R} {len : Nat} {f : Nat → R} (hy : Rep y len f) (hm : A.m ≤ len)
    (hell : ∃ y', ell y = some y' ∧ Rep y' len (fun k => if k < A.m then
      comb alpha beta (∑ t ∈ range w, rowF (hybRow A w k) x t) (f k) else f k))
    (hdot : ∀ i, i < A.m → dot (A.p i) (A.p (i + 1)) = some (rowDot A x i))
    (rest : List Int) :
    ∃ y', hybMv ell dot alpha A.m ((A.m : Int) - ((longRows A w A.m).length : Int))
        A.ptr ((longRows A w A.m).map (fun (k : Nat) => (k : Int)) ++ rest) beta y = some y' ∧
      Rep y' len (fun k => if k < A.m then comb alpha beta (rowDot A x k) (f k) else f k) := by
  have hmem : ∀ k, k ∈ longRows A w A.m ↔ k < A.m ∧ w < (A.row k).length := by
    intro k; simp [longRows]
  have hnd : (longRows A w A.m).Nodup := List.Nodup.filter _ List.nodup_range
  obtain ⟨y1, e1, r1⟩ := hell
  have hshort : ∀ k, ¬ w < (A.row k).length →
      ∑ t ∈ range w, rowF (hybRow A w k) x t = rowDot A x k := by
    intro k hk
    have hrow : hybRow A w k = A.row k := by simp [hybRow, hk]
    rw [hrow, sum_rowF _ _ (by omega), rowDot]
  unfold hybMv
  by_cases hz : (longRows A w A.m).length = 0
  · rw [if_pos (by omega)]
    refine ⟨y1, e1, r1.congr ?_⟩
    intro k _
    by_cases hk : k < A.m
    · rw [if_pos hk, if_pos hk, hshort]
      intro hw
      have : k ∈ longRows A w A.m := (hmem k).2 ⟨hk, hw⟩
      rw [List.length_eq_zero_iff.1 hz] at this
      simp at this
    · rw [if_neg hk, if_neg hk]
  rw [if_neg (by omega)]
  have hcount : (A.m : Int) - ((A.m : Int) - ((longRows A w A.m).length : Int))
      = ((longRows A w A.m).length : Int) := by omega
  rw [hcount]
  -- the state before the CSR pass
  have key : ∃ y2 f2, ((if beta ≠ 0 then
        saveRows ((longRows A w A.m).length : Int)
          ((longRows A w A.m).map (fun (k : Nat) => (k : Int)) ++ rest) y else some []).bind fun t =>
      (ell y).bind fun y =>
      (if beta ≠ 0 then restoreRows ((longRows A w A.m).length : Int)
        ((longRows A w A.m).map (fun (k : Nat) => (k : Int)) ++ rest) t y else some y))
      = some y2 ∧ Rep y2 len f2 ∧
      (∀ k, k ∈ longRows A w A.m → ∀ r, comb alpha beta r (f2 k) = comb alpha beta r (f k)) ∧
      (∀ k, k ∉ longRows A w A.m → k < len → f2 k =
        if k < A.m then comb alpha beta (rowDot A x k) (f k) else f k) := by
    by_cases hb : beta = 0
    · refine ⟨y1, _, ?_, r1, ?_, ?_⟩
      · simp [hb, ← e1]
      · intro k _ r
        rw [hb]
        exact comb_zero _ _ _ _
      · intro k hk _
        by_cases hkm : k < A.m
        · simp only [if_pos hkm]
          rw [hshort]
          intro hw
          exact hk ((hmem k).2 ⟨hkm, hw⟩)
        · simp only [if_neg hkm]
    · simp only [ne_eq, hb, not_false_iff, if_true]
      rw [saveRows_spec hy (longRows A w A.m) rest (fun k hk => by
        have := ((hmem k).1 hk).1; omega)]
      rw [Option.bind_some, e1, Option.bind_some]
      obtain ⟨y2, g1, g2⟩ := rows_list_spec r1 (longRows A w A.m) hnd (fun k _ => f k)
        (fun i y => (rd ((longRows A w A.m).map (fun (k : Nat) => (k : Int)) ++ rest) i).bind
          fun r => (rd ((longRows A w A.m).map f) i).bind fun v => wr y r v) (by
          intro i hi y' f' hy' _
          have a1 : rd ((longRows A w A.m).map (fun (k : Nat) => (k : Int)) ++ rest) i
              = some ((longRows A w A.m)[i] : Int) := by
            rw [rd_ofNat, List.getElem?_append_left (by simpa using hi)]
            simp [hi]
          have a2 : rd ((longRows A w A.m).map f) i = some (f (longRows A w A.m)[i]) := by
            rw [rd_ofNat]; simp [hi]
          rw [a1, a2]
          simp only [Option.bind_some]
          exact hy'.wr_nat _ (by
            have := ((hmem _).1 (List.getElem_mem hi)).1; omega))
      refine ⟨y2, _, g1, g2, ?_, ?_⟩
      · intro k hk r
        simp only [if_pos hk]
      · intro k hk _
        simp only [if_neg hk]
        by_cases hkm : k < A.m
        · simp only [if_pos hkm]
          rw [hshort]
          intro hw
          exact hk ((hmem k).2 ⟨hkm, hw⟩)
        · simp only [if_neg hkm]
  obtain ⟨y2, f2, k1, k2, k3, k4⟩ := key
  obtain ⟨y3, g1, g2⟩ := rows_list_spec k2 (longRows A w A.m) hnd
    (fun k v => comb alpha beta (rowDot A x k) v)
    (fun i y => do
      let off ← rd ((longRows A w A.m).map (fun (k : Nat) => (k : Int)) ++ rest) i
      let rs ← rd A.ptr off
      let re ← rd A.ptr (off + 1)
      let r ← dot rs re
      storeRow alpha beta r off y) (by
      intro i hi y' f' hy' hf'
      have a1 : rd ((longRows A w A.m).map (fun (k : Nat) => (k : Int)) ++ rest) i
          = some ((longRows A w A.m)[i] : Int) := by
        rw [rd_ofNat, List.getElem?_append_left (by simpa using hi)]
        simp [hi]
      have hlt := ((hmem _).1 (List.getElem_mem hi)).1
      have a2 := h.rd_ptr (i := (longRows A w A.m)[i]) (by omega)
      have a3 := h.rd_ptr (i := (longRows A w A.m)[i] + 1) (by omega)
      push_cast at a3
      simp only [a1, a2, a3, Option.bind_eq_bind, Option.bind_some, hdot _ hlt]
      rw [← hf']
      exact storeRow_spec hy' (by omega))
  refine ⟨y3, ?_, g2.congr ?_⟩
  · simp only [Option.bind_eq_bind] at g1 ⊢
    rw [← g1, ← Option.bind_some (f := fun y => forC 0 ((longRows A w A.m).length : Int) _ y),
      ← k1]
    simp only [Option.bind_assoc]
    by_cases hb : beta = 0 <;> simp only [hb, ne_eq, not_true, not_false_iff, if_true, if_false]
  · intro k hk
    by_cases hL : k ∈ longRows A w A.m
    · rw [if_pos hL, k3 k hL, if_pos ((hmem k).1 hL).1]
    · rw [if_neg hL, k4 k hL hk]

theorem ellthybmvAvx2_spec {A : Csr R} (h : A.WF) {w : Nat} {pad : Nat → Int} {ec : List Int}
    {ev x : List R}
    (hc : EllContent A.m w (fun i t => t * A.m + i) A.base pad (hybRow A w) ec ev)
    (hx : A.n ≤ x.length)
    (hp : ∀ i, i < A.m → (hybRow A w i).length < w → 0 ≤ pad i - A.base ∧ pad i - A.base < A.n)
    {alpha beta : R} {y : List R} {len : Nat} {f : Nat → R} (hy : Rep y len f) (hm : A.m ≤ len)
    (rest : List Int) :
    ∃ y', ellthybmvAvx2 alpha A.m ev ec w ((A.m : Int) - ((longRows A w A.m).length : Int))
        A.val A.ptr A.ind ((longRows A w A.m).map (fun (k : Nat) => (k : Int)) ++ rest) A.base
        x beta y = some y' ∧
      Rep y' len (fun k => if k < A.m then comb alpha beta (rowDot A x k) (f k) else f k) :=
  hybMv_spec h hy hm (elltmvAvx2_spec hc hx (hyb_range h w) hp hy hm) (fun _ hi => dot4_row h hx hi) rest

end Verif
