/-
The full copy of a symmetric or Hermitian matrix: what the counting, scanning and filling loops leave.
The entries are seen as placed, in program order, in 3 buckets per row: left part, diagonal, right part.
-/
import Verif.Model.Expand
import Verif.Proofs.MCopy
import Verif.Proofs.Sp2m3

namespace Verif
open Model

variable {R : Type}

/-! ### placement in buckets -/

/-- the arrays after the items `pre`, a prefix of all the items, have been placed -/
structure Placed (items pre : List (Int × Int × R)) (ind : List Int) (val : List R) : Prop where
  len1 : ind.length = items.length
  len2 : val.length = items.length
  win1 : ∀ k, Win ind (startK (items.map (·.1)) k) ((bucket pre k).map (·.1))
  win2 : ∀ k, Win val (startK (items.map (·.1)) k) ((bucket pre k).map (·.2))

theorem bucket_snoc (pre : List (Int × Int × R)) (q : Nat) (c : Int) (v : R) (k : Nat) :
    bucket (pre ++ [((q : Int), c, v)]) k = if q = k then bucket pre k ++ [(c, v)] else bucket pre k := by
  rw [bucket_append]
  by_cases h : q = k
  · subst h; simp [bucket]
  · have : ¬ ((q : Int) = (k : Int)) := by omega
    rw [if_neg h]
    simp [bucket, this]

theorem cntK_snoc (pre : List (Int × Int × R)) (q : Nat) (c : Int) (v : R) (k : Nat) :
    cntK ((pre ++ [((q : Int), c, v)]).map (·.1)) k
      = cntK (pre.map (·.1)) k + if q = k then 1 else 0 := by
  rw [← bucket_length, bucket_snoc, ← bucket_length]
  split <;> simp

theorem placed_nil {items : List (Int × Int × R)} {ind : List Int} {val : List R}
    (h1 : ind.length = items.length) (h2 : val.length = items.length) : Placed items [] ind val :=
  ⟨h1, h2, fun k t ht => by simp [bucket] at ht, fun k t ht => by simp [bucket] at ht⟩

/-- placing the next item -/
theorem placed_snoc {items pre : List (Int × Int × R)} {ind : List Int} {val : List R}
    (h : Placed items pre ind val) {q : Nat} {c : Int} {v : R}
    (hp : (pre ++ [((q : Int), c, v)]) <+: items) {pos : Int}
    (hpos : pos = ((startK (items.map (·.1)) q + cntK (pre.map (·.1)) q : Nat) : Int)) :
    ∃ ind' val', wr val pos v = some val' ∧ wr ind pos c = some ind' ∧
      Placed items (pre ++ [((q : Int), c, v)]) ind' val' := by
  obtain ⟨suf, hs⟩ := hp
  have hks : items.map (·.1) = (pre.map (·.1) ++ [(q : Int)]) ++ suf.map (·.1) := by
    rw [← hs]; simp
  have hcap : ∀ k, cntK (pre.map (·.1)) k + (if q = k then 1 else 0) ≤ cntK (items.map (·.1)) k := by
    intro k
    rw [← cntK_snoc pre q c v k, ← hs, List.map_append (l₁ := pre ++ _)]
    exact cntK_le_of_prefix k
  have hq := hcap q
  rw [if_pos rfl] at hq
  have hle : ∀ k, startK (items.map (·.1)) k ≤ items.length := by
    intro k
    have := List.countP_le_length (p := fun c => decide (c < (k : Int))) (l := items.map (·.1))
    rwa [List.length_map] at this
  have hslot : startK (items.map (·.1)) q + cntK (pre.map (·.1)) q < items.length := by
    have := hle (q + 1)
    rw [startK_succ] at this
    omega
  have hb1 : ((bucket pre q).map (·.1)).length = cntK (pre.map (·.1)) q := by
    rw [List.length_map, bucket_length]
  have hb2 : ((bucket pre q).map (·.2)).length = cntK (pre.map (·.1)) q := by
    rw [List.length_map, bucket_length]
  obtain ⟨ind', e1, l1, w1, f1⟩ := (h.win1 q).snoc c (k := pos) (by rw [hb1]; exact hpos)
    (by rw [hb1, h.len1]; exact hslot)
  obtain ⟨val', e2, l2, w2, f2⟩ := (h.win2 q).snoc v (k := pos) (by rw [hb2]; exact hpos)
    (by rw [hb2, h.len2]; exact hslot)
  rw [hb1] at f1
  rw [hb2] at f2
  have hdis : ∀ k, q ≠ k → ∀ p, startK (items.map (·.1)) k ≤ p →
      p < startK (items.map (·.1)) k + cntK (pre.map (·.1)) k →
      p ≠ startK (items.map (·.1)) q + cntK (pre.map (·.1)) q := by
    intro k hk p hp1 hp2 he
    have hck := hcap k
    rw [if_neg hk] at hck
    rcases Nat.lt_or_gt_of_ne hk with hlt | hlt
    · have := startK_mono (items.map (·.1)) (show q + 1 ≤ k by omega)
      rw [startK_succ] at this
      omega
    · have := startK_mono (items.map (·.1)) (show k + 1 ≤ q by omega)
      rw [startK_succ] at this
      omega
  refine ⟨ind', val', e2, e1, l1.trans h.len1, l2.trans h.len2, ?_, ?_⟩
  · intro k
    rw [bucket_snoc]
    by_cases hk : q = k
    · subst hk
      rw [if_pos rfl, List.map_append]
      exact w1
    · rw [if_neg hk]
      refine (h.win1 k).frame ?_
      intro p hp1 hp2
      rw [List.length_map, bucket_length] at hp2
      exact f1 p (hdis k hk p hp1 hp2)
  · intro k
    rw [bucket_snoc]
    by_cases hk : q = k
    · subst hk
      rw [if_pos rfl, List.map_append]
      exact w2
    · rw [if_neg hk]
      refine (h.win2 k).frame ?_
      intro p hp1 hp2
      rw [List.length_map, bucket_length] at hp2
      exact f2 p (hdis k hk p hp1 hp2)

theorem Win.append {α : Type} {a : List α} {s : Nat} {L1 L2 : List α} (h1 : Win a s L1)
    (h2 : Win a (s + L1.length) L2) : Win a s (L1 ++ L2) := by
  intro t ht
  by_cases h : t < L1.length
  · rw [List.getElem?_append_left h]
    exact h1 t h
  · rw [List.getElem?_append_right (by omega)]
    have := h2 (t - L1.length) (by simp at ht; omega)
    rw [← this]
    congr 1
    omega

/-! ### the items -/

/-- bucket of the stored triangle -/
def ownK (u : Bool) (i : Nat) : Nat := 3 * i + (if u then 2 else 0)
/-- bucket of the mirrored triangle -/
def mirK (u : Bool) (j : Nat) : Nat := 3 * j + (if u then 0 else 2)

theorem ownK_inj {u : Bool} {i j : Nat} : ownK u i = ownK u j ↔ i = j := by
  unfold ownK; omega
theorem mirK_inj {u : Bool} {i j : Nat} : mirK u i = mirK u j ↔ i = j := by
  unfold mirK; omega
theorem ownK_ne_mirK {u : Bool} {i j : Nat} : ownK u i ≠ mirK u j := by
  unfold ownK mirK; cases u <;> simp <;> omega
theorem ownK_ne_diag {u : Bool} {i j : Nat} : ownK u i ≠ 3 * j + 1 := by
  unfold ownK; cases u <;> simp <;> omega
theorem mirK_ne_diag {u : Bool} {i j : Nat} : mirK u i ≠ 3 * j + 1 := by
  unfold mirK; cases u <;> simp <;> omega

/-- the items of one source entry -/
def evE (u : Bool) (hc : R → R) (i : Nat) (e : Int × R) : List (Int × Int × R) :=
  if inTri (!u) i e.1.toNat then
    [((ownK u i : Nat), e.1, e.2), ((mirK u e.1.toNat : Nat), (i : Int), hc e.2)]
  else []

/-- the items of one source row, with its diagonal value -/
def evRow (u : Bool) (hc : R → R) (d : Nat → R) (A : Csr R) (i : Nat) : List (Int × Int × R) :=
  (A.row i).flatMap (evE u hc i) ++ [(((3 * i + 1 : Nat) : Int), (i : Int), d i)]

/-- the items of the first `k` rows -/
def evs (u : Bool) (hc : R → R) (d : Nat → R) (A : Csr R) (k : Nat) : List (Int × Int × R) :=
  (List.range k).flatMap (evRow u hc d A)

theorem evs_succ (u : Bool) (hc : R → R) (d : Nat → R) (A : Csr R) (k : Nat) :
    evs u hc d A (k + 1) = evs u hc d A k ++ evRow u hc d A k := by
  simp [evs, List.range_succ, List.flatMap_append]

theorem evs_prefix (u : Bool) (hc : R → R) (d : Nat → R) (A : Csr R) {k l : Nat} (h : k ≤ l) :
    evs u hc d A k <+: evs u hc d A l := by
  induction h with
  | refl => exact List.prefix_refl _
  | step _ ih => rw [evs_succ]; exact ih.trans (List.prefix_append _ _)

theorem bucket_flatMap {α : Type} (l : List α) (f : α → List (Int × Int × R)) (k : Nat) :
    bucket (l.flatMap f) k = l.flatMap fun x => bucket (f x) k := by
  induction l with
  | nil => rfl
  | cons a l ih => rw [List.flatMap_cons, bucket_append, ih, List.flatMap_cons]

theorem bucket_evE (u : Bool) (hc : R → R) (i : Nat) (e : Int × R) (k : Nat) :
    bucket (evE u hc i e) k
      = if inTri (!u) i e.1.toNat then
          (if k = ownK u i then [e] else []) ++ (if k = mirK u e.1.toNat then [((i : Int), hc e.2)] else [])
        else [] := by
  unfold evE
  by_cases ht : inTri (!u) i e.1.toNat = true
  · rw [if_pos ht, if_pos ht]
    have h1 := bucket_snoc (R := R) [] (ownK u i) e.1 e.2 k
    have h2 := bucket_snoc [((ownK u i : Nat), e.1, e.2)] (mirK u e.1.toNat) (i : Int) (hc e.2) k
    simp only [List.nil_append, List.cons_append] at h1 h2
    rw [h2, h1]
    have h0 : bucket ([] : List (Int × Int × R)) k = [] := rfl
    rw [h0]
    by_cases a1 : k = ownK u i
    · have a2 : ¬ k = mirK u e.1.toNat := fun h => ownK_ne_mirK (a1.symm.trans h)
      rw [if_neg (fun h => a2 h.symm), if_pos a1.symm, if_pos a1, if_neg a2]
      rfl
    · by_cases a2 : k = mirK u e.1.toNat
      · rw [if_pos a2.symm, if_neg (fun h => a1 h.symm), if_neg a1, if_pos a2]
      · rw [if_neg (fun h => a2 h.symm), if_neg (fun h => a1 h.symm), if_neg a1, if_neg a2]
        rfl
  · rw [if_neg ht, if_neg ht]
    rfl

theorem flatMap_range_single {α : Type} {m i : Nat} (hi : i < m) (f : Nat → List α)
    (h : ∀ k, k < m → k ≠ i → f k = []) : (List.range m).flatMap f = f i := by
  induction m with
  | zero => omega
  | succ m ih =>
    rw [List.range_succ, List.flatMap_append]
    by_cases him : i = m
    · subst him
      have : (List.range i).flatMap f = [] := by
        rw [List.flatMap_eq_nil_iff]
        intro k hk
        rw [List.mem_range] at hk
        exact h k (by omega) (by omega)
      rw [this]
      simp
    · rw [ih (by omega) (fun k hk => h k (by omega))]
      have := h m (by omega) (fun h => him h.symm)
      simp [this]

theorem flatMap_range_none {α : Type} {m : Nat} (f : Nat → List α)
    (h : ∀ k, k < m → f k = []) : (List.range m).flatMap f = [] := by
  rw [List.flatMap_eq_nil_iff]
  intro k hk
  exact h k (List.mem_range.mp hk)

/-- the stored triangle of a row -/
theorem bucket_row_own (u : Bool) (hc : R → R) (A : Csr R) (i k : Nat) :
    ((A.row k).flatMap fun e => bucket (evE u hc k e) (ownK u i))
      = if k = i then triRow (!u) A i else [] := by
  have h1 : ∀ e : Int × R, bucket (evE u hc k e) (ownK u i)
      = if k = i then (if inTri (!u) i e.1.toNat then [e] else []) else [] := by
    intro e
    rw [bucket_evE, if_neg ownK_ne_mirK, List.append_nil]
    by_cases h : k = i
    · subst h
      rw [if_pos rfl, if_pos rfl]
    · have : ¬ ownK u i = ownK u k := fun h' => h (ownK_inj.1 h').symm
      rw [if_neg this, if_neg h]
      split <;> rfl
  by_cases h : k = i
  · subst h
    simp only [h1, if_true]
    unfold triRow
    induction A.row k with
    | nil => rfl
    | cons e L ih =>
      rw [List.flatMap_cons, ih]
      by_cases ht : inTri (!u) k e.1.toNat = true
      · rw [if_pos ht]; simp [ht]
      · rw [if_neg ht]; simp [ht]
  · simp [h1, h]

/-- the mirrored entries of row `j` -/
def mirRow (u : Bool) (hc : R → R) (A : Csr R) (k j : Nat) : List (Int × R) :=
  (A.row k).flatMap fun e =>
    if inTri (!u) k e.1.toNat ∧ e.1.toNat = j then [((k : Int), hc e.2)] else []

theorem bucket_row_mir (u : Bool) (hc : R → R) (A : Csr R) (j k : Nat) :
    ((A.row k).flatMap fun e => bucket (evE u hc k e) (mirK u j)) = mirRow u hc A k j := by
  unfold mirRow
  congr 1
  funext e
  rw [bucket_evE, if_neg (show ¬ mirK u j = ownK u k from fun h => ownK_ne_mirK h.symm),
    List.nil_append]
  by_cases ht : inTri (!u) k e.1.toNat = true
  · rw [if_pos ht]
    by_cases hj : e.1.toNat = j
    · rw [if_pos (by rw [hj]), if_pos ⟨ht, hj⟩]
    · rw [if_neg (fun h => hj (mirK_inj.1 h).symm), if_neg (fun h => hj h.2)]
  · rw [if_neg ht, if_neg (fun h => ht h.1)]

theorem bucket_row_diag (u : Bool) (hc : R → R) (A : Csr R) (i k : Nat) :
    ((A.row k).flatMap fun e => bucket (evE u hc k e) (3 * i + 1)) = [] := by
  rw [List.flatMap_eq_nil_iff]
  intro e _
  rw [bucket_evE, if_neg (show ¬ 3 * i + 1 = ownK u k from fun h => ownK_ne_diag h.symm),
    if_neg (show ¬ 3 * i + 1 = mirK u e.1.toNat from fun h => mirK_ne_diag h.symm)]
  split <;> rfl

theorem bucket_evRow (u : Bool) (hc : R → R) (d : Nat → R) (A : Csr R) (i k : Nat) :
    bucket (evRow u hc d A i) k = ((A.row i).flatMap fun e => bucket (evE u hc i e) k)
      ++ if 3 * i + 1 = k then [((i : Int), d i)] else [] := by
  unfold evRow
  rw [bucket_snoc, bucket_flatMap]
  split <;> simp

theorem bucket_own (u : Bool) (hc : R → R) (d : Nat → R) (A : Csr R) (n i : Nat) :
    bucket (evs u hc d A n) (ownK u i) = if i < n then triRow (!u) A i else [] := by
  unfold evs
  rw [bucket_flatMap]
  have h1 : ∀ k, bucket (evRow u hc d A k) (ownK u i) = if k = i then triRow (!u) A i else [] := by
    intro k
    rw [bucket_evRow, bucket_row_own,
      if_neg (show ¬ 3 * k + 1 = ownK u i from fun h => ownK_ne_diag h.symm), List.append_nil]
  simp only [h1]
  by_cases hi : i < n
  · rw [flatMap_range_single hi _ (fun k _ hk => if_neg hk), if_pos hi, if_pos rfl]
  · rw [flatMap_range_none _ (fun k hk => if_neg (by omega)), if_neg hi]

theorem bucket_diag (u : Bool) (hc : R → R) (d : Nat → R) (A : Csr R) (n i : Nat) :
    bucket (evs u hc d A n) (3 * i + 1) = if i < n then [((i : Int), d i)] else [] := by
  unfold evs
  rw [bucket_flatMap]
  have h1 : ∀ k, bucket (evRow u hc d A k) (3 * i + 1) = if k = i then [((i : Int), d i)] else [] := by
    intro k
    rw [bucket_evRow, bucket_row_diag, List.nil_append]
    by_cases h : k = i
    · subst h; rw [if_pos rfl, if_pos rfl]
    · rw [if_neg (by omega), if_neg h]
  simp only [h1]
  by_cases hi : i < n
  · rw [flatMap_range_single hi _ (fun k _ hk => if_neg hk), if_pos hi, if_pos rfl]
  · rw [flatMap_range_none _ (fun k hk => if_neg (by omega)), if_neg hi]

theorem bucket_mir (u : Bool) (hc : R → R) (d : Nat → R) (A : Csr R) (n j : Nat) :
    bucket (evs u hc d A n) (mirK u j) = (List.range n).flatMap fun k => mirRow u hc A k j := by
  unfold evs
  rw [bucket_flatMap]
  congr 1
  funext k
  rw [bucket_evRow, bucket_row_mir, if_neg (fun h => mirK_ne_diag h.symm), List.append_nil]

/-- buckets of the first rows and of a part of the next one -/
theorem bucket_part (u : Bool) (hc : R → R) (d : Nat → R) (A : Csr R) (i : Nat) (L : List (Int × R))
    (k : Nat) : bucket (evs u hc d A i ++ L.flatMap (evE u hc i)) k
      = bucket (evs u hc d A i) k ++ L.flatMap fun e => bucket (evE u hc i e) k := by
  rw [bucket_append, bucket_flatMap]

end Verif
