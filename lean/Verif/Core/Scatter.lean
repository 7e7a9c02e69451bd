/-
Array updates as lists of writes.  A loop nest that only writes is equal to a monadic fold
over a list of (offset, value) pairs; these lemmas give the final content.
-/
import Verif.Core.Rep
import Verif.Core.Lists

namespace Verif

variable {α β ε σ : Type}

/-- one write -/
def wr1 (a : List α) (e : Int × α) : Option (List α) := wr a e.1 e.2

/-- one write to each of two parallel arrays -/
def wr2 (s : List α × List β) (e : Int × α × β) : Option (List α × List β) := do
  let a ← wr s.1 e.1 e.2.1
  let b ← wr s.2 e.1 e.2.2
  some (a, b)

theorem wr_getElem? {a b : List α} {i : Int} {v : α} (h : wr a i v = some b) (k : Nat) :
    b[k]? = if (k : Int) = i then some v else a[k]? := by
  have := rd_wr h (k := (k : Int))
  simpa [rd_ofNat] using this

theorem scatter1 (L : List (Int × α)) (a : List α)
    (h : ∀ e ∈ L, 0 ≤ e.1 ∧ e.1 < a.length) :
    ∃ a', L.foldlM wr1 a = some a' ∧ a'.length = a.length ∧
      (∀ (k : Nat) v, (∃ e ∈ L, e.1 = (k : Int)) → (∀ e ∈ L, e.1 = (k : Int) → e.2 = v) →
        a'[k]? = some v) ∧
      (∀ k : Nat, (∀ e ∈ L, e.1 ≠ (k : Int)) → a'[k]? = a[k]?) := by
  obtain ⟨a', h1, h2, h3, h4⟩ := foldlM_inv (f := wr1) (l := L) (s := a)
    (P := fun pre s => s.length = a.length ∧
      (∀ (k : Nat) v, (∃ e ∈ pre, e.1 = (k : Int)) → (∀ e ∈ pre, e.1 = (k : Int) → e.2 = v) →
        s[k]? = some v) ∧
      (∀ k : Nat, (∀ e ∈ pre, e.1 ≠ (k : Int)) → s[k]? = a[k]?))
    ⟨rfl, by simp, by simp⟩ (by
      rintro pre x suf s hL ⟨p1, p2, p3⟩
      have hx := h x (by simp [hL])
      refine ⟨_, wr_eq hx.1 (by rw [p1]; exact hx.2), by simpa using p1, ?_, ?_⟩
      · intro k v hex hall
        have hw := wr_getElem? (wr_eq (v := x.2) hx.1 (by rw [p1]; exact hx.2)) k
        rw [hw]
        by_cases hk : (k : Int) = x.1
        · rw [if_pos hk, hall x (by simp) hk.symm]
        · rw [if_neg hk]
          apply p2
          · obtain ⟨e, he, hek⟩ := hex
            rcases List.mem_append.1 he with he | he
            · exact ⟨e, he, hek⟩
            · simp at he; subst he; exact absurd hek.symm hk
          · intro e he hek; exact hall e (by simp [he]) hek
      · intro k hall
        have hw := wr_getElem? (wr_eq (v := x.2) hx.1 (by rw [p1]; exact hx.2)) k
        rw [hw, if_neg (fun hk => hall x (by simp) hk.symm)]
        exact p3 k (fun e he => hall e (by simp [he])))
  exact ⟨a', h1, h2, h3, h4⟩

theorem scatter2 (L : List (Int × α × β)) (a : List α) (b : List β)
    (h : ∀ e ∈ L, 0 ≤ e.1 ∧ e.1 < a.length ∧ e.1 < b.length) :
    ∃ a' b', L.foldlM wr2 (a, b) = some (a', b') ∧ a'.length = a.length ∧ b'.length = b.length ∧
      (∀ (k : Nat) u v, (∃ e ∈ L, e.1 = (k : Int)) → (∀ e ∈ L, e.1 = (k : Int) → e.2 = (u, v)) →
        a'[k]? = some u ∧ b'[k]? = some v) ∧
      (∀ k : Nat, (∀ e ∈ L, e.1 ≠ (k : Int)) → a'[k]? = a[k]? ∧ b'[k]? = b[k]?) := by
  obtain ⟨s', h1, h2, h3, h4, h5⟩ := foldlM_inv (f := wr2) (l := L) (s := (a, b))
    (P := fun pre s => s.1.length = a.length ∧ s.2.length = b.length ∧
      (∀ (k : Nat) u v, (∃ e ∈ pre, e.1 = (k : Int)) → (∀ e ∈ pre, e.1 = (k : Int) → e.2 = (u, v)) →
        s.1[k]? = some u ∧ s.2[k]? = some v) ∧
      (∀ k : Nat, (∀ e ∈ pre, e.1 ≠ (k : Int)) → s.1[k]? = a[k]? ∧ s.2[k]? = b[k]?))
    ⟨rfl, rfl, by simp, by simp⟩ (by
      rintro pre x suf ⟨sa, sb⟩ hL ⟨p1, p2, p3, p4⟩
      have hx := h x (by simp [hL])
      have w1 := wr_eq (a := sa) (v := x.2.1) hx.1 (by rw [p1]; exact hx.2.1)
      have w2 := wr_eq (a := sb) (v := x.2.2) hx.1 (by rw [p2]; exact hx.2.2)
      refine ⟨(sa.set x.1.toNat x.2.1, sb.set x.1.toNat x.2.2), by simp [wr2, w1, w2],
        by simpa using p1, by simpa using p2, ?_, ?_⟩
      · intro k u v hex hall
        rw [wr_getElem? w1 k, wr_getElem? w2 k]
        by_cases hk : (k : Int) = x.1
        · rw [if_pos hk, if_pos hk, hall x (by simp) hk.symm]; simp
        · rw [if_neg hk, if_neg hk]
          apply p3
          · obtain ⟨e, he, hek⟩ := hex
            rcases List.mem_append.1 he with he | he
            · exact ⟨e, he, hek⟩
            · simp at he; subst he; exact absurd hek.symm hk
          · intro e he hek; exact hall e (by simp [he]) hek
      · intro k hall
        have hne : ¬ (k : Int) = x.1 := fun hk => hall x (by simp) hk.symm
        rw [wr_getElem? w1 k, wr_getElem? w2 k, if_neg hne, if_neg hne]
        exact p4 k (fun e he => hall e (by simp [he])))
  exact ⟨s'.1, s'.2, h1, h2, h3, h4, h5⟩

/-- Read-modify-write scatter: cell `k` accumulates the entries with key `k`, in order. -/
theorem scatter_rmw (key : ε → Int) (op : α → ε → α) (L : List ε) {y : List α} {len : Nat}
    {f : Nat → α} (hy : Rep y len f) (h : ∀ e ∈ L, 0 ≤ key e ∧ key e < len) :
    ∃ y', L.foldlM (fun y e => (rd y (key e)).bind fun x => wr y (key e) (op x e)) y = some y' ∧
      Rep y' len (fun k => (L.filter fun e => key e = (k : Int)).foldl op (f k)) := by
  refine foldlM_inv (P := fun pre s => Rep s len
      (fun k => (pre.filter fun e => key e = (k : Int)).foldl op (f k))) (by simpa using hy) ?_
  intro pre x suf s hL hp
  have hx := h x (by simp [hL])
  rw [hp.rd hx.1 hx.2]
  simp only [Option.bind_some]
  obtain ⟨b, hb, hr⟩ := hp.wr (op ((pre.filter fun e => key e = ((key x).toNat : Int)).foldl op
    (f (key x).toNat)) x) hx.1 hx.2
  refine ⟨b, hb, hr.congr ?_⟩
  intro k _
  rw [List.filter_append, List.foldl_append]
  by_cases hk : k = (key x).toNat
  · subst hk
    rw [Function.update_self]
    have : ((key x).toNat : Int) = key x := by omega
    simp [this]
  · rw [Function.update_of_ne hk]
    have : ¬ key x = (k : Int) := by omega
    simp [this]

/-- a loop that carries an advancing position is a fold over the indexed list -/
theorem foldlM_counter (g : Int → ε → σ → Option σ) (L : List ε) (p : Int) (s : σ) :
    L.foldlM (fun (ps : Int × σ) x => (g ps.1 x ps.2).bind fun s' => some (ps.1 + 1, s')) (p, s)
      = (L.zipIdx.foldlM (fun s xi => g (p + (xi.2 : Int)) xi.1 s) s).bind
          fun s' => some (p + L.length, s') := by
  suffices H : ∀ (L : List ε) (q : Nat) (s : σ),
      L.foldlM (fun (ps : Int × σ) x => (g ps.1 x ps.2).bind fun s' => some (ps.1 + 1, s'))
        (p + (q : Int), s)
      = ((L.zipIdx q).foldlM (fun s xi => g (p + (xi.2 : Int)) xi.1 s) s).bind
          fun s' => some (p + (q : Int) + L.length, s') by
    simpa using H L 0 s
  intro L
  induction L with
  | nil => intro q s; simp
  | cons x L ih =>
    intro q s
    simp only [List.foldlM_cons, List.zipIdx_cons, Option.bind_eq_bind, Option.bind_assoc]
    congr 1
    funext s'
    simp only [Option.bind_some]
    have e : p + (q : Int) + 1 = p + ((q + 1 : Nat) : Int) := by omega
    rw [e, ih (q + 1) s']
    congr 1
    funext s''
    congr 2
    simp; omega

/-- any counting loop is a fold over a range -/
theorem forC_range {f : Int → σ → Option σ} (lo hi : Int) (s : σ) :
    forC lo hi f s = (List.range (hi - lo).toNat).foldlM (fun s (i : Nat) => f (lo + i) s) s := by
  unfold forC
  generalize (hi - lo).toNat = n
  suffices H : ∀ n (q : Nat) s, forN f n (lo + (q : Int)) s
      = (List.range' q n).foldlM (fun s (i : Nat) => f (lo + i) s) s by
    have := H n 0 s
    simpa [List.range_eq_range'] using this
  intro n
  induction n with
  | zero => intro q s; rfl
  | succ n ih =>
    intro q s
    simp only [forN, List.range'_succ, List.foldlM_cons]
    congr 1
    funext s'
    rw [show lo + (q : Int) + 1 = lo + ((q + 1 : Nat) : Int) by omega]
    exact ih (q + 1) s'

/-- two-dimensional offsets with stride `w` do not collide -/
theorem off_inj {w i j i' j' : Int} (h0 : 0 ≤ j) (h1 : j < w) (h0' : 0 ≤ j') (h1' : j' < w)
    (h : i * w + j = i' * w + j') : i = i' ∧ j = j' := by
  have hw : 0 < w := by omega
  have e1 : (i * w + j) / w = i := by
    rw [Int.add_comm, Int.add_mul_ediv_right _ _ (by omega), Int.ediv_eq_zero_of_lt h0 h1]; omega
  have e2 : (i' * w + j') / w = i' := by
    rw [Int.add_comm, Int.add_mul_ediv_right _ _ (by omega), Int.ediv_eq_zero_of_lt h0' h1']; omega
  have : i = i' := by rw [← e1, ← e2, h]
  subst this; omega

/-- a two-dimensional offset stays below the array length -/
theorem off_lt {w i j m : Int} (hi : i < m) (h1 : j < w) (hw : 0 ≤ w) : i * w + j < m * w := by
  have : (i + 1) * w ≤ m * w := Int.mul_le_mul_of_nonneg_right (by omega) hw
  have e : (i + 1) * w = i * w + w := by ring
  omega

theorem off_nonneg {w i j : Int} (hi : 0 ≤ i) (hj : 0 ≤ j) (hw : 0 ≤ w) : 0 ≤ i * w + j := by
  have := Int.mul_nonneg hi hw; omega

namespace Csr
end Csr
end Verif
