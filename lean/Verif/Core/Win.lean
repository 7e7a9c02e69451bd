/-
Windows of arrays: `Win a s L` says that the cells `s, s+1, …` of `a` hold `L`.
-/
import Verif.Core.Scatter
import Verif.Proofs.MkCsr

namespace Verif

variable {α : Type}

def Win (a : List α) (s : Nat) (L : List α) : Prop := ∀ t, t < L.length → a[s + t]? = L[t]?

namespace Win

variable {a b : List α} {s : Nat} {L : List α}

theorem nil : Win a s [] := fun t h => by simp at h

theorem rd (h : Win a s L) {t : Nat} (ht : t < L.length) {k : Int} (hk : k = ((s + t : Nat) : Int)) :
    rd a k = some L[t] := by
  subst hk
  rw [rd_ofNat, h t ht]
  simp [ht]

/-- append at the end of the window -/
theorem snoc (h : Win a s L) (v : α) {k : Int} (hk : k = ((s + L.length : Nat) : Int))
    (hl : s + L.length < a.length) :
    ∃ b, wr a k v = some b ∧ b.length = a.length ∧ Win b s (L ++ [v]) ∧
      ∀ q, q ≠ s + L.length → b[q]? = a[q]? := by
  subst hk
  refine ⟨_, wr_ofNat hl, by simp, ?_, ?_⟩
  · intro t ht
    rw [List.length_append, List.length_singleton] at ht
    by_cases e : t = L.length
    · subst e
      simp [List.getElem?_set, hl]
    · rw [List.getElem?_set_ne (by omega), h t (by omega), List.getElem?_append_left (by omega)]
  · intro q hq
    rw [List.getElem?_set_ne (by omega)]

/-- overwrite one cell of the window -/
theorem set (h : Win a s L) (v : α) {t : Nat} (ht : t < L.length) {k : Int}
    (hk : k = ((s + t : Nat) : Int)) (hl : s + L.length ≤ a.length) :
    ∃ b, wr a k v = some b ∧ b.length = a.length ∧ Win b s (L.set t v) ∧
      ∀ q, q ≠ s + t → b[q]? = a[q]? := by
  subst hk
  refine ⟨_, wr_ofNat (by omega), by simp, ?_, ?_⟩
  · intro t' ht'
    rw [List.length_set] at ht'
    by_cases e : t' = t
    · subst e
      rw [List.getElem?_set_self (by omega), List.getElem?_set_self (by omega)]
    · rw [List.getElem?_set_ne (by omega), List.getElem?_set_ne (by omega), h t' ht']
  · intro q hq
    rw [List.getElem?_set_ne (by omega)]

/-- a change outside the window -/
theorem frame (h : Win a s L) (he : ∀ q, s ≤ q → q < s + L.length → b[q]? = a[q]?) : Win b s L := by
  intro t ht
  rw [he _ (by omega) (by omega), h t ht]

end Win

/-- The arrays whose windows at the row offsets hold the rows are the arrays of `mkCsr`. -/
theorem take_of_win {rows : Nat → List α} {a : List α} {m : Nat} (hl : offs rows m ≤ a.length)
    (h : ∀ i, i < m → Win a (offs rows i) (rows i)) :
    a.take (offs rows m) = (List.range m).flatMap rows := by
  have key : ∀ k, k ≤ m → a.take (offs rows k) = (List.range k).flatMap rows := by
    intro k
    induction k with
    | zero => intro _; simp
    | succ k ih =>
      intro hk
      rw [List.range_succ, List.flatMap_append, ← ih (by omega), offs_succ, List.take_add]
      congr 1
      simp only [List.flatMap_cons, List.flatMap_nil, List.append_nil]
      have hle : offs rows (k + 1) ≤ offs rows m := offs_mono rows hk
      rw [offs_succ] at hle
      apply List.ext_getElem?
      intro t
      by_cases ht : t < (rows k).length
      · rw [List.getElem?_take_of_lt ht, List.getElem?_drop, h k (by omega) t ht]
      · rw [List.getElem?_eq_none (by simp; omega), List.getElem?_eq_none (by omega)]
  exact key m (le_refl _)

theorem offs_map {β : Type} (rows : Nat → List α) (f : α → β) (i : Nat) :
    offs (fun k => (rows k).map f) i = offs rows i := by
  simp [offs]

theorem csr_of_win {R : Type} {m n : Nat} {base : Int} {rows : Nat → List (Int × R)}
    {ptr ind : List Int} {val : List R}
    (hp : ptr = (List.range (m + 1)).map fun i => base + (offs rows i : Int))
    (h1 : offs rows m ≤ ind.length) (h2 : offs rows m ≤ val.length)
    (hi : ∀ i, i < m → Win ind (offs rows i) ((rows i).map fun e => e.1 + base))
    (hv : ∀ i, i < m → Win val (offs rows i) ((rows i).map (·.2))) :
    (⟨m, n, base, ptr, ind.take (offs rows m), val.take (offs rows m)⟩ : Csr R)
      = mkCsr m n base rows := by
  have e1 := take_of_win (rows := fun i => (rows i).map fun e => e.1 + base) (a := ind) (m := m)
    (by rw [offs_map]; exact h1) (fun i h => by rw [offs_map]; exact hi i h)
  have e2 := take_of_win (rows := fun i => (rows i).map (·.2)) (a := val) (m := m)
    (by rw [offs_map]; exact h2) (fun i h => by rw [offs_map]; exact hv i h)
  rw [offs_map] at e1 e2
  rw [e1, e2, hp]
  simp only [mkCsr, List.map_flatMap]

end Verif
