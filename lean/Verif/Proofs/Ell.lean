/-
ELL conversions: proofs.
-/
import Verif.Core.Scatter
import Verif.Proofs.Get
import Verif.Model.Ell
import Verif.Spec.Ell
import Mathlib.Tactic.Linarith

namespace Verif
open Model

variable {R : Type} [Zero R]

/-- the writes made for one row: the entries, then padding up to the width -/
def ellW (off : Nat → Int) (w : Nat) (pad : Int) (base : Int) (row : List (Int × R)) :
    List (Int × Int × R) :=
  row.zipIdx.map (fun et => (off et.2, et.1.1 + base, et.1.2)) ++
    (List.range (w - row.length)).map (fun k => (off (row.length + k), pad, 0))

theorem mem_ellW {off : Nat → Int} {w : Nat} {pad base : Int} {row : List (Int × R)}
    (hl : row.length ≤ w) {e : Int × Int × R} (he : e ∈ ellW off w pad base row) :
    ∃ t, t < w ∧ e.1 = off t ∧
      ((∃ h : t < row.length, e.2 = (row[t].1 + base, row[t].2)) ∨
        (row.length ≤ t ∧ e.2 = (pad, 0))) := by
  rcases List.mem_append.1 he with h | h
  · obtain ⟨⟨x, t⟩, hx, rfl⟩ := List.mem_map.1 h
    have := List.mem_zipIdx' hx
    obtain ⟨ht, hxe⟩ := this
    exact ⟨t, by omega, rfl, .inl ⟨ht, by simp [hxe]⟩⟩
  · obtain ⟨k, hk, rfl⟩ := List.mem_map.1 h
    have := List.mem_range.1 hk
    exact ⟨row.length + k, by omega, rfl, .inr ⟨by omega, rfl⟩⟩

theorem ellW_mem {off : Nat → Int} {w : Nat} {pad base : Int} {row : List (Int × R)}
    {t : Nat} (ht : t < w) : ∃ e ∈ ellW off w pad base row, e.1 = off t := by
  by_cases h : t < row.length
  · refine ⟨(off t, row[t].1 + base, row[t].2), ?_, rfl⟩
    apply List.mem_append_left
    refine List.mem_map.2 ⟨(row[t], t), ?_, rfl⟩
    rw [List.mem_zipIdx_iff_getElem?]
    simp [h]
  · refine ⟨(off t, pad, 0), ?_, rfl⟩
    apply List.mem_append_right
    refine List.mem_map.2 ⟨t - row.length, ?_, ?_⟩
    · rw [List.mem_range]; omega
    · rw [show row.length + (t - row.length) = t by omega]

theorem ell_fill {m w : Nat} {off : Nat → Nat → Nat} {base : Int} {pad : Nat → Int}
    {rows : Nat → List (Int × R)} {ec : List Int} {ev : List R}
    (hinj : ∀ i t i' t', i < m → t < w → i' < m → t' < w → off i t = off i' t' → i = i' ∧ t = t')
    (hb : ∀ i t, i < m → t < w → off i t < ec.length ∧ off i t < ev.length)
    (hl : ∀ i, i < m → (rows i).length ≤ w) :
    ∃ ec' ev', ((List.range m).flatMap fun i =>
        ellW (fun t => ((off i t : Nat) : Int)) w (pad i) base (rows i)).foldlM wr2 (ec, ev)
          = some (ec', ev') ∧
      ec'.length = ec.length ∧ ev'.length = ev.length ∧
      EllContent m w off base pad rows ec' ev' ∧
      (∀ k, (∀ i t, i < m → t < w → k ≠ off i t) → ec'[k]? = ec[k]? ∧ ev'[k]? = ev[k]?) := by
  have hm : ∀ e, e ∈ ((List.range m).flatMap fun i =>
        ellW (fun t => ((off i t : Nat) : Int)) w (pad i) base (rows i)) →
      ∃ i t, i < m ∧ t < w ∧ e.1 = (off i t : Int) ∧
      ((∃ h : t < (rows i).length, e.2 = ((rows i)[t].1 + base, (rows i)[t].2)) ∨
        ((rows i).length ≤ t ∧ e.2 = (pad i, 0))) := by
    intro e he
    obtain ⟨i, hi, h⟩ := List.mem_flatMap.1 he
    have hi : i < m := by simpa using hi
    obtain ⟨t, h1, h2, h3⟩ := mem_ellW (hl i hi) h
    exact ⟨i, t, hi, h1, h2, h3⟩
  obtain ⟨ec', ev', h1, h2, h3, h4, h5⟩ := scatter2 ((List.range m).flatMap fun i =>
        ellW (fun t => ((off i t : Nat) : Int)) w (pad i) base (rows i)) ec ev (by
    intro e he
    obtain ⟨i, t, hi, ht, e1, _⟩ := hm e he
    have := hb i t hi ht
    omega)
  have hex : ∀ i t, i < m → t < w → ∃ e ∈ ((List.range m).flatMap fun i =>
        ellW (fun t => ((off i t : Nat) : Int)) w (pad i) base (rows i)), e.1 = (off i t : Int) := by
    intro i t hi ht
    obtain ⟨e, he, hk⟩ := ellW_mem (off := fun t => ((off i t : Nat) : Int)) (pad := pad i)
      (base := base) (row := rows i) ht
    exact ⟨e, List.mem_flatMap.2 ⟨i, by simpa using hi, he⟩, hk⟩
  refine ⟨ec', ev', h1, h2, h3, ⟨?_, ?_⟩, ?_⟩
  · intro i t hi h
    have ht : t < w := by have := hl i hi; omega
    apply h4 _ _ _ (hex i t hi ht)
    intro e he hk
    obtain ⟨i', t', hi', ht', e1, hc⟩ := hm e he
    obtain ⟨rfl, rfl⟩ := hinj i t i' t' hi ht hi' ht' (by omega)
    rcases hc with ⟨_, hc⟩ | ⟨hc, _⟩
    · exact hc
    · omega
  · intro i t hi h ht
    apply h4 _ _ _ (hex i t hi ht)
    intro e he hk
    obtain ⟨i', t', hi', ht', e1, hc⟩ := hm e he
    obtain ⟨rfl, rfl⟩ := hinj i t i' t' hi ht hi' ht' (by omega)
    rcases hc with ⟨hc, _⟩ | ⟨_, hc⟩
    · omega
    · exact hc
  · intro k hk
    apply h5
    intro e he hek
    obtain ⟨i, t, hi, ht, e1, _⟩ := hm e he
    exact hk i t hi ht (by omega)

theorem range_pad {β : Type} (f : Nat → β) (a b : Nat) :
    (List.range ((b : Int) - (a : Int)).toNat).map (fun k => f (a + k))
      = (List.range (b - a)).map (fun k => f (a + k)) := by
  congr 2
  omega

/-- csr2ell as a list of writes -/
theorem csr2ellCore_eq {A : Csr R} (h : A.WF) (w : Nat) (hl : ∀ i, i < A.m → (A.row i).length ≤ w)
    (ec : List Int) (ev : List R) :
    csr2ellCore A.m A.base A.ptr A.ind A.val w ec ev
      = ((List.range A.m).flatMap fun i =>
          ellW (fun t => ((i * w + t : Nat) : Int)) w (-1) A.base (A.row i)).foldlM wr2 (ec, ev) := by
  unfold csr2ellCore
  rw [forC_eq_foldlM, foldlM_flatMap']
  apply foldlM_congr'
  intro s i hi
  have hi : i < A.m := by simpa using hi
  have e1 := h.rd_ptr (i := i) (by omega)
  have e2 := h.rd_ptr (i := i + 1) (by omega)
  rw [show ((i + 1 : Nat) : Int) = (i : Int) + 1 by omega] at e2
  rw [e1, e2]
  simp only [Option.bind_eq_bind, Option.bind_some]
  have := Csr.forC_row_raw h hi (fun c v (ps : Int × List Int × List R) =>
    (wr ps.2.1 ps.1 c).bind fun ec => (wr ps.2.2 ps.1 v).bind fun ev => some (ps.1 + 1, ec, ev))
    ((i : Int) * w, s)
  simp only [Option.bind_eq_bind] at this
  rw [this]
  have hc := foldlM_counter (fun p (x : Int × R) (s : List Int × List R) =>
    wr2 s (p, x.1 + A.base, x.2)) (A.row i) ((i : Int) * w) s
  have hf : (fun (ps : Int × List Int × List R) (x : Int × R) =>
      (wr2 ps.2 (ps.1, x.1 + A.base, x.2)).bind fun s' => some (ps.1 + 1, s'))
      = fun ps x => (wr ps.2.1 ps.1 (x.1 + A.base)).bind fun ec =>
          (wr ps.2.2 ps.1 x.2).bind fun ev => some (ps.1 + 1, ec, ev) := by
    funext ps x
    simp [wr2, Option.bind_assoc]
  rw [hf] at hc
  rw [hc, ellW, List.foldlM_append, foldlM_map']
  simp only [Option.bind_assoc, Option.bind_eq_bind, Option.bind_some]
  have hcast : ∀ t : Nat, ((i * w + t : Nat) : Int) = (i : Int) * w + (t : Int) := by
    intro t; push_cast; ring
  simp only [hcast]
  congr 1
  funext s'
  have hrl := Csr.row_length h hi
  rw [show A.p (i + 1) - A.base - (A.p i - A.base) = ((A.row i).length : Int) by omega]
  rw [forC_range]
  have hc2 := foldlM_counter (fun p (_ : Nat) (s : List Int × List R) =>
    wr2 s (p, -1, 0)) (List.range ((w : Int) - ((A.row i).length : Int)).toNat)
      ((i : Int) * w + (A.row i).length) s'
  have hf2 : (fun (ps : Int × List Int × List R) (_ : Nat) =>
      (wr2 ps.2 (ps.1, (-1 : Int), (0 : R))).bind fun s' => some (ps.1 + 1, s'))
      = fun ps _ => (wr ps.2.1 ps.1 (-1)).bind fun ec =>
          (wr ps.2.2 ps.1 0).bind fun ev => some (ps.1 + 1, ec, ev) := by
    funext ps x
    simp [wr2, Option.bind_assoc]
  rw [hf2] at hc2
  rw [hc2]
  simp only [Option.bind_assoc, Option.bind_some, Option.bind_fun_some]
  rw [foldlM_map']
  have hn : ((w : Int) - ((A.row i).length : Int)).toNat = w - (A.row i).length := by omega
  rw [hn, List.zipIdx_eq_zip_range', List.length_range, ← List.range_eq_range']
  rw [show (List.range (w - (A.row i).length)).zip (List.range (w - (A.row i).length))
      = (List.range (w - (A.row i).length)).map (fun k => (k, k)) by
    rw [← List.zip_map']; simp]
  rw [foldlM_map']
  apply foldlM_congr'
  intro s k _
  congr 1
  simp only [Prod.mk.injEq, and_true]
  push_cast; ring

/-- the two inner loops of the transposed conversions, as a list of writes -/
theorem ellt_row {A : Csr R} (h : A.WF) {i : Nat} (hi : i < A.m) (m r w : Nat) (pad : Int)
    (hl : (A.row i).length ≤ w)
    (hp : (A.row i).length < w → rd A.ind (A.p (i + 1) - A.base - 1) = some pad)
    (s : List Int × List R) :
    ((forC (A.p i - A.base) (A.p (i + 1) - A.base) (fun j (ks : Int × List Int × List R) =>
        (rd A.ind j).bind fun c => (rd A.val j).bind fun v =>
        (wr ks.2.1 (ks.1 * m + r) c).bind fun ec =>
        (wr ks.2.2 (ks.1 * m + r) v).bind fun ev => some (ks.1 + 1, ec, ev)) (0, s)).bind fun ks =>
      forC ks.1 w (fun k s =>
        (rd A.ind (A.p (i + 1) - A.base - 1)).bind fun c =>
        (wr s.1 (k * m + r) c).bind fun ec =>
        (wr s.2 (k * m + r) 0).bind fun ev => some (ec, ev)) ks.2)
    = (ellW (fun t => ((t * m + r : Nat) : Int)) w pad A.base (A.row i)).foldlM wr2 s := by
  have := Csr.forC_row_raw h hi (fun c v (ks : Int × List Int × List R) =>
    (wr ks.2.1 (ks.1 * m + r) c).bind fun ec => (wr ks.2.2 (ks.1 * m + r) v).bind fun ev =>
      some (ks.1 + 1, ec, ev)) (0, s)
  simp only [Option.bind_eq_bind] at this
  rw [this]
  have hc := foldlM_counter (fun p (x : Int × R) (s : List Int × List R) =>
    wr2 s (p * m + r, x.1 + A.base, x.2)) (A.row i) 0 s
  have hf : (fun (ps : Int × List Int × List R) (x : Int × R) =>
      (wr2 ps.2 (ps.1 * m + r, x.1 + A.base, x.2)).bind fun s' => some (ps.1 + 1, s'))
      = fun ps x => (wr ps.2.1 (ps.1 * m + r) (x.1 + A.base)).bind fun ec =>
          (wr ps.2.2 (ps.1 * m + r) x.2).bind fun ev => some (ps.1 + 1, ec, ev) := by
    funext ps x
    simp [wr2, Option.bind_assoc]
  rw [hf] at hc
  rw [hc, ellW, List.foldlM_append, foldlM_map']
  simp only [Option.bind_assoc, Option.bind_eq_bind, Option.bind_some]
  have hcast : ∀ t : Nat, ((t * m + r : Nat) : Int) = (t : Int) * m + (r : Int) := by
    intro t; push_cast; ring
  simp only [hcast, Int.zero_add]
  congr 1
  funext s'
  rw [forC_range]
  have hn : ((w : Int) - ((A.row i).length : Int)).toNat = w - (A.row i).length := by omega
  rw [hn, foldlM_map']
  apply foldlM_congr'
  intro s k hk
  have hk : k < w - (A.row i).length := by simpa using hk
  rw [hp (by omega)]
  simp only [Option.bind_some, wr2]
  push_cast
  rfl

/-- csr2ellt as a list of writes -/
theorem csr2elltCore_eq {A : Csr R} (h : A.WF) (w : Nat)
    (hl : ∀ i, i < A.m → (A.row i).length ≤ w) (pad : Nat → Int)
    (hp : ∀ i, i < A.m → (A.row i).length < w →
      rd A.ind (A.p (i + 1) - A.base - 1) = some (pad i))
    (ec : List Int) (ev : List R) :
    csr2elltCore A.m A.base A.ptr A.ind A.val w ec ev
      = ((List.range A.m).flatMap fun i =>
          ellW (fun t => ((t * A.m + i : Nat) : Int)) w (pad i) A.base (A.row i)).foldlM
            wr2 (ec, ev) := by
  unfold csr2elltCore
  rw [forC_eq_foldlM, foldlM_flatMap']
  apply foldlM_congr'
  intro s i hi
  have hi : i < A.m := by simpa using hi
  have e1 := h.rd_ptr (i := i) (by omega)
  have e2 := h.rd_ptr (i := i + 1) (by omega)
  rw [show ((i + 1 : Nat) : Int) = (i : Int) + 1 by omega] at e2
  rw [e1, e2]
  simp only [Option.bind_eq_bind, Option.bind_some]
  exact ellt_row h hi A.m i w (pad i) (hl i hi) (hp i hi) s

/-- appending at the end of the filled part of a buffer -/
theorem wr_append_drop {α : Type} (L map : List α) (v : α) (h : L.length < map.length) :
    wr (L ++ map.drop L.length) (L.length : Int) v = some (L ++ [v] ++ map.drop (L.length + 1)) := by
  rw [wr_ofNat (by simp; omega)]
  congr 1
  rw [List.set_append_right _ _ (Nat.le_refl _)]
  rw [List.drop_eq_getElem_cons h, Nat.sub_self, List.set_cons_zero]
  simp

theorem longRows_succ (A : Csr R) (w i : Nat) :
    longRows A w (i + 1) = longRows A w i ++ (if w < (A.row i).length then [i] else []) := by
  unfold longRows
  rw [List.range_succ, List.filter_append]
  congr 1
  by_cases h : w < (A.row i).length <;> simp [h]

theorem longRows_mono (A : Csr R) (w : Nat) {i j : Nat} (h : i ≤ j) :
    (longRows A w i).length ≤ (longRows A w j).length := by
  induction j, h using Nat.le_induction with
  | base => exact Nat.le_refl _
  | succ j _ ih => rw [longRows_succ]; simp; omega

/-- counting the rows that fit, convert.hpp:231-238 -/
theorem ellm_count {A : Csr R} (h : A.WF) (w : Nat) :
    forC 0 (A.m : Int) (fun k em => do
      let b ← rd A.ptr (k + 1)
      let a ← rd A.ptr k
      some (if b - a ≤ (w : Int) then em + 1 else em)) 0
    = some ((A.m : Int) - ((longRows A w A.m).length : Int)) := by
  obtain ⟨s, h1, h2⟩ := forC_inv_nat (n := A.m) (f := fun k em => do
      let b ← rd A.ptr (k + 1)
      let a ← rd A.ptr k
      some (if b - a ≤ (w : Int) then em + 1 else em)) (s := (0 : Int))
    (P := fun i s => s = (i : Int) - ((longRows A w i).length : Int)) (by simp [longRows]) (by
    intro i s hi hs
    have e1 := h.rd_ptr (i := i) (by omega)
    have e2 := h.rd_ptr (i := i + 1) (by omega)
    rw [show ((i + 1 : Nat) : Int) = (i : Int) + 1 by omega] at e2
    rw [e1, e2]
    refine ⟨_, rfl, ?_⟩
    have hrl := Csr.row_length h hi
    rw [longRows_succ]
    subst hs
    by_cases hw : w < (A.row i).length
    · rw [if_neg (by omega), if_pos hw]; simp
    · rw [if_pos (by omega), if_neg hw]; simp; omega)
  rw [h1, h2]

theorem csr2ellthybridCore_spec {A : Csr R} (h : A.WF) (w : Nat) (pad : Nat → Int)
    (hp : ∀ i, i < A.m → (hybRow A w i).length < w →
      rd A.ind (A.p (i + 1) - A.base - 1) = some (pad i))
    (map ec : List Int) (ev : List R)
    (hmap : (longRows A w A.m).length ≤ map.length)
    (hec : A.m * w ≤ ec.length) (hev : A.m * w ≤ ev.length) :
    ∃ ec' ev', csr2ellthybridCore A.m A.base A.ptr A.ind A.val w map ec ev
      = some ((A.m : Int) - ((longRows A w A.m).length : Int),
          (longRows A w A.m).map (fun (k : Nat) => (k : Int)) ++ map.drop (longRows A w A.m).length, ec', ev') ∧
      ec'.length = ec.length ∧ ev'.length = ev.length ∧
      EllContent A.m w (fun i t => t * A.m + i) A.base pad (hybRow A w) ec' ev' := by
  have hlen : ∀ i, (hybRow A w i).length ≤ w := by
    intro i; unfold hybRow; split
    · simp
    · omega
  have hinj : ∀ i t i' t', i < A.m → t < w → i' < A.m → t' < w →
      t * A.m + i = t' * A.m + i' → i = i' ∧ t = t' := by
    intro i t i' t' hi _ hi' _ he
    have := off_inj (w := (A.m : Int)) (i := t) (j := i) (i' := t') (j' := i')
      (by omega) (by omega) (by omega) (by omega) (by exact_mod_cast he)
    omega
  have hb : ∀ i t, i < A.m → t < w → t * A.m + i < ec.length ∧ t * A.m + i < ev.length := by
    intro i t hi ht
    have := off_lt (w := (A.m : Int)) (i := t) (j := i) (m := w) (by omega) (by omega) (by omega)
    have e : t * A.m + i < w * A.m := by exact_mod_cast this
    rw [Nat.mul_comm w] at e
    omega
  have hfill : ∀ i, i ≤ A.m → _ := fun i hi => ell_fill (m := i) (w := w)
    (off := fun i t => t * A.m + i) (base := A.base) (pad := pad) (rows := hybRow A w)
    (ec := ec) (ev := ev)
    (fun a b c d h1 h2 h3 h4 h5 => hinj a b c d (by omega) h2 (by omega) h4 h5)
    (fun a b h1 h2 => hb a b (by omega) h2) (fun a _ => hlen a)
  unfold csr2ellthybridCore
  rw [ellm_count h w]
  simp only [Option.bind_eq_bind, Option.bind_some]
  obtain ⟨s, h1, h2, h3, h4, h5⟩ := forC_inv_nat (n := A.m)
    (P := fun i (s : Int × Int × List Int × List Int × List R) =>
      s.1 = ((longRows A w i).length : Int) ∧ s.2.1 = (i : Int) ∧
      s.2.2.1 = (longRows A w i).map (fun (k : Nat) => (k : Int)) ++ map.drop (longRows A w i).length ∧
      ((List.range i).flatMap fun i =>
        ellW (fun t => ((t * A.m + i : Nat) : Int)) w (pad i) A.base (hybRow A w i)).foldlM
          wr2 (ec, ev) = some s.2.2.2)
    (s := (0, 0, map, ec, ev)) (f := ellthybRow A.m A.base A.ptr A.ind A.val w) (by simp [longRows]) (by
      rintro i ⟨tc, tr, mp, ec1, ev1⟩ hi ⟨p1, p2, p3, p4⟩
      simp only at p1 p2 p3 p4
      subst p2
      have e1 := h.rd_ptr (i := i) (by omega)
      have e2 := h.rd_ptr (i := i + 1) (by omega)
      rw [show ((i + 1 : Nat) : Int) = (i : Int) + 1 by omega] at e2
      have hrl := Csr.row_length h hi
      obtain ⟨ec2, ev2, g1, -⟩ := hfill (i + 1) (by omega)
      rw [List.range_succ, List.flatMap_append, List.foldlM_append, p4] at g1
      simp only [List.flatMap_cons, List.flatMap_nil, List.append_nil, Option.bind_eq_bind,
        Option.bind_some] at g1
      refine ⟨(if w < (A.row i).length then tc + 1 else tc, (i : Int) + 1,
        (longRows A w (i + 1)).map (fun (k : Nat) => (k : Int)) ++ map.drop (longRows A w (i + 1)).length,
        ec2, ev2), ?_, ?_, by simp, rfl, ?_⟩
      · simp only [ellthybRow, e1, e2, Option.bind_some, Option.bind_eq_bind]
        by_cases hw : w < (A.row i).length
        · rw [if_pos (by omega), if_pos hw, longRows_succ, if_pos hw]
          have hlt : (longRows A w i).length < map.length := by
            have := longRows_mono A w (i := i + 1) (j := A.m) (by omega)
            rw [longRows_succ, if_pos hw] at this
            simp at this; omega
          have := wr_append_drop ((longRows A w i).map (fun (k : Nat) => (k : Int))) map (i : Int)
            (by simpa using hlt)
          simp only [List.length_map] at this
          rw [p1, p3, this]
          simp only [Option.bind_some]
          have hrow : hybRow A w i = [] := by simp [hybRow, hw]
          rw [hrow] at g1
          simp only [ellW, List.zipIdx_nil, List.map_nil, List.nil_append, List.length_nil,
            Nat.sub_zero, Nat.zero_add] at g1
          rw [foldlM_map'] at g1
          rw [forC_eq_foldlM]
          have : (List.range w).foldlM (fun (s : List Int × List R) (j : Nat) =>
              (rd A.ind (A.p (i + 1) - A.base - 1)).bind fun c =>
              (wr s.1 ((j : Int) * A.m + i) c).bind fun ec =>
              (wr s.2 ((j : Int) * A.m + i) 0).bind fun ev => some (ec, ev)) (ec1, ev1)
              = some (ec2, ev2) := by
            rw [← g1]
            apply foldlM_congr'
            intro s k hk
            have hk : k < w := by simpa using hk
            rw [hp i hi (by rw [hrow]; simp; omega)]
            simp only [Option.bind_some, wr2]
            push_cast
            rfl
          rw [this]
          simp
        · rw [if_neg (by omega), if_neg hw, longRows_succ, if_neg hw]
          have hrow : hybRow A w i = A.row i := by simp [hybRow, hw]
          rw [hrow] at g1
          have := ellt_row h hi A.m i w (pad i) (by omega) (by
            intro hlt; exact hp i hi (by rw [hrow]; exact hlt)) (ec1, ev1)
          rw [g1] at this
          rw [← Option.bind_assoc, this]
          simp [p3]
      · simp only [p1]
        rw [longRows_succ]
        split <;> simp
      · simp only
        rw [List.range_succ, List.flatMap_append, List.foldlM_append, p4]
        simpa using g1)
  obtain ⟨ec', ev', g1, g2, g3, g4, -⟩ := hfill A.m (Nat.le_refl _)
  rw [g1] at h5
  refine ⟨ec', ev', ?_, g2, g3, g4⟩
  rw [h1]
  simp only [Option.bind_some]
  rw [h4]
  obtain ⟨x1, x2, x3, x4, x5⟩ := s
  simp only [Option.some.injEq, Prod.mk.injEq] at h5 ⊢
  simp [← h5]

theorem ellWidthLoop_spec {A : Csr R} (h : A.WF) :
    ∃ w : Nat, ellWidthLoop A.m A.ptr = some (w : Int) ∧ (∀ i, i < A.m → (A.row i).length ≤ w) ∧
      (w = 0 ∨ ∃ i, i < A.m ∧ (A.row i).length = w) := by
  unfold ellWidthLoop
  obtain ⟨s, h1, w, rfl, h2, h3⟩ := forC_inv_nat (n := A.m) (f := fun i w => do
      let b ← rd A.ptr (i + 1)
      let a ← rd A.ptr i
      some (max (b - a) w)) (s := (0 : Int))
    (P := fun i s => ∃ w : Nat, s = (w : Int) ∧ (∀ k, k < i → (A.row k).length ≤ w) ∧
      (w = 0 ∨ ∃ k, k < i ∧ (A.row k).length = w)) ⟨0, by simp⟩ (by
    rintro i s hi ⟨w, rfl, hw, hex⟩
    have e1 := h.rd_ptr (i := i) (by omega)
    have e2 := h.rd_ptr (i := i + 1) (by omega)
    rw [show ((i + 1 : Nat) : Int) = (i : Int) + 1 by omega] at e2
    rw [e1, e2]
    have hrl := Csr.row_length h hi
    refine ⟨_, rfl, max (A.row i).length w, by rw [← hrl]; push_cast; rfl, ?_, ?_⟩
    · intro k hk
      by_cases hki : k = i
      · subst hki; omega
      · have := hw k (by omega); omega
    · by_cases hm : w < (A.row i).length
      · exact .inr ⟨i, by omega, by omega⟩
      · rcases hex with rfl | ⟨k, hk, hke⟩
        · left; omega
        · exact .inr ⟨k, by omega, by omega⟩)
  exact ⟨w, h1, h2, h3⟩

theorem ellthybWidthCore_spec {A : Csr R} (h : A.WF) (hm : 0 < A.m) :
    ∃ w : Nat, ellthybWidthCore A.m A.nnz A.ptr
        = some ((A.m : Int) - ((longRows A w A.m).length : Int), (w : Int)) ∧
      ∃ i, i < A.m ∧ (A.row i).length ≤ w := by
  unfold ellthybWidthCore
  generalize ((A.nnz : Int)).tdiv A.m = nnza
  obtain ⟨⟨mx, mn, cmn, cmx⟩, h1, p1, p2, p3, p6, p4, p5⟩ := forC_inv_nat (n := A.m)
    (f := hybStat nnza A.ptr) (s := ((0, (A.nnz : Int), 0, 0) : Int × Int × Int × Int))
    (P := fun i s => 0 ≤ s.1 ∧ 0 ≤ s.2.1 ∧ (s.2.2.1 + s.2.2.2 = i ∧ 0 ≤ s.2.2.1) ∧
      (0 < s.2.2.1 ∨ s.2.1 = A.nnz) ∧
      (0 < s.2.2.1 → ∃ k, k < i ∧ ((A.row k).length : Int) ≤ s.2.1) ∧
      (0 < s.2.2.2 → ∃ k, k < i ∧ ((A.row k).length : Int) ≤ s.1)) (by simp) (by
    rintro i ⟨mx, mn, cmn, cmx⟩ hi ⟨p1, p2, p3, p6, p4, p5⟩
    simp only at p1 p2 p3 p4 p5 p6
    have hcmn : A.p (i + 1) - A.p i ≤ A.nnz := by
      have q1 := h.lo (i := i) (by omega)
      have q2 := h.hi (i := i + 1) (by omega)
      unfold Csr.nnz
      omega
    have e1 := h.rd_ptr (i := i) (by omega)
    have e2 := h.rd_ptr (i := i + 1) (by omega)
    rw [show ((i + 1 : Nat) : Int) = (i : Int) + 1 by omega] at e2
    have hrl := Csr.row_length h hi
    have key4 : 0 < cmn → ∃ k, k < i + 1 ∧ ((A.row k).length : Int) ≤
        (if A.p (i + 1) - A.p i < mn ∧ A.p (i + 1) - A.p i > nnza then A.p (i + 1) - A.p i
          else mn) := by
      intro hc
      obtain ⟨k, hk, hle⟩ := p4 hc
      split
      · exact ⟨i, by omega, by omega⟩
      · exact ⟨k, by omega, hle⟩
    have key5 : 0 < cmx → ∃ k, k < i + 1 ∧ ((A.row k).length : Int) ≤
        (if A.p (i + 1) - A.p i > mx ∧ A.p (i + 1) - A.p i ≤ nnza then A.p (i + 1) - A.p i
          else mx) := by
      intro hc
      obtain ⟨k, hk, hle⟩ := p5 hc
      split
      · exact ⟨i, by omega, by omega⟩
      · exact ⟨k, by omega, hle⟩
    simp only [hybStat, e1, e2, Option.bind_eq_bind, Option.bind_some]
    by_cases hle : A.p (i + 1) - A.p i ≤ nnza
    · rw [if_pos hle]
      refine ⟨_, rfl, ?_, ?_, ?_, ?_, key4, ?_⟩
      · simp only; split <;> omega
      · simp only; split <;> omega
      · simp only; push_cast; omega
      · simp only
        rw [if_neg (by omega)]; exact p6
      · simp only
        intro _
        refine ⟨i, by omega, ?_⟩
        split <;> omega
    · rw [if_neg hle]
      refine ⟨_, rfl, ?_, ?_, ?_, ?_, ?_, key5⟩
      · simp only; split <;> omega
      · simp only; split <;> omega
      · simp only; push_cast; omega
      · simp only; left; omega
      · simp only
        intro _
        by_cases hlt : A.p (i + 1) - A.p i < mn ∧ A.p (i + 1) - A.p i > nnza
        · rw [if_pos hlt]; exact ⟨i, by omega, by omega⟩
        · rw [if_neg hlt]
          rcases p6 with p6 | p6
          · obtain ⟨k, hk, hle⟩ := p4 p6
            exact ⟨k, by omega, hle⟩
          · exact ⟨i, by omega, by omega⟩)
  simp only at p1 p2 p3 p4 p5
  simp only [Option.bind_eq_bind]
  rw [h1]
  simp only [Option.bind_some]
  have hw : ∃ w : Nat, (w : Int) = (if cmx ≥ cmn then mx else mn) ∧
      ∃ i, i < A.m ∧ (A.row i).length ≤ w := by
    split
    · refine ⟨mx.toNat, by omega, ?_⟩
      obtain ⟨k, hk, hle⟩ := p5 (by omega)
      exact ⟨k, hk, by omega⟩
    · refine ⟨mn.toNat, by omega, ?_⟩
      obtain ⟨k, hk, hle⟩ := p4 (by omega)
      exact ⟨k, hk, by omega⟩
  obtain ⟨w, hw1, hw2⟩ := hw
  refine ⟨w, ?_, hw2⟩
  rw [← hw1]
  have := ellm_count h w
  simp only [Option.bind_eq_bind] at this
  rw [this]
  rfl

end Verif
