/-
`Rep a len f`: array `a` has `len` cells and cell `k` holds `f k`.
-/
import Verif.Core.Mem
import Mathlib.Logic.Function.Basic

namespace Verif

variable {α : Type}

/-- Array `a` has length `len` and content `f 0, …, f (len-1)`. -/
def Rep (a : List α) (len : Nat) (f : Nat → α) : Prop :=
  a.length = len ∧ ∀ k, k < len → a[k]? = some (f k)

namespace Rep
variable {a b : List α} {len : Nat} {f g : Nat → α}

theorem len_eq (h : Rep a len f) : a.length = len := h.1

theorem rd (h : Rep a len f) {i : Int} (h0 : 0 ≤ i) (h1 : i < len) :
    Verif.rd a i = some (f i.toNat) := by
  rw [rd_eq h0]; exact h.2 _ (by omega)

theorem rd_nat (h : Rep a len f) {i : Nat} (h1 : i < len) :
    Verif.rd a (i : Int) = some (f i) := by
  rw [rd_ofNat]; exact h.2 _ h1

theorem getElem? (h : Rep a len f) {i : Nat} (h1 : i < len) : a[i]? = some (f i) := h.2 _ h1

theorem set (h : Rep a len f) (i : Nat) (v : α) :
    Rep (a.set i v) len (Function.update f i v) := by
  refine ⟨by simp [h.1], fun k hk => ?_⟩
  rw [List.getElem?_set]
  have hl := h.1
  by_cases e : i = k
  · subst e; simp [hl, hk]
  · simp only [e, if_false]
    rw [h.2 k hk, Function.update_of_ne (Ne.symm e)]

theorem wr (h : Rep a len f) {i : Int} (v : α) (h0 : 0 ≤ i) (h1 : i < len) :
    ∃ b, Verif.wr a i v = some b ∧ Rep b len (Function.update f i.toNat v) := by
  refine ⟨_, wr_eq h0 (by rw [h.1]; exact h1), h.set _ _⟩

theorem wr_nat (h : Rep a len f) {i : Nat} (v : α) (h1 : i < len) :
    ∃ b, Verif.wr a (i : Int) v = some b ∧ Rep b len (Function.update f i v) := by
  refine ⟨_, wr_ofNat (by rw [h.1]; exact h1), h.set _ _⟩

theorem congr (h : Rep a len f) (e : ∀ k, k < len → f k = g k) : Rep a len g :=
  ⟨h.1, fun k hk => by rw [h.2 k hk, e k hk]⟩

theorem of_list (a : List α) (d : α) : Rep a a.length (fun k => a.getD k d) := by
  refine ⟨rfl, fun k hk => ?_⟩
  simp [hk]

theorem eq_map (h : Rep a len f) : a = (List.range len).map f := by
  apply List.ext_getElem?
  intro k
  by_cases hk : k < len
  · rw [h.2 k hk]; simp [hk]
  · have := h.1
    rw [List.getElem?_eq_none (by omega), List.getElem?_eq_none (by simp; omega)]

theorem of_map : Rep ((List.range len).map f) len f :=
  ⟨by simp, fun k hk => by simp [hk]⟩

theorem ext (ha : Rep a len f) (hb : Rep b len f) : a = b := by
  rw [ha.eq_map, hb.eq_map]

theorem getD (h : Rep a len f) {i : Nat} (d : α) (h1 : i < len) : a.getD i d = f i := by
  rw [List.getD_eq_getElem?_getD, h.2 i h1]; rfl

end Rep

/-- Filling loop: `for(i = 0; i < n; ++i) a[i] = g i`. -/
theorem fill_rep {a : List α} {len : Nat} {f g : Nat → α} (h : Rep a len f) {n : Nat}
    (hn : n ≤ len) (body : Int → List α → Option (List α))
    (hb : ∀ (i : Nat) a, i < n → body i a = wr a i (g i)) :
    ∃ b, forC 0 (n : Int) body a = some b ∧
      Rep b len (fun k => if k < n then g k else f k) := by
  refine forC_inv_nat (P := fun i b => Rep b len (fun k => if k < i then g k else f k)) ?_ ?_
  · simpa using h
  · intro i s hi hs
    rw [hb i s hi]
    obtain ⟨b, e, r⟩ := hs.wr_nat (g i) (show i < len by omega)
    refine ⟨b, e, r.congr ?_⟩
    intro k _
    by_cases hk : k = i
    · subst hk; simp
    · rw [Function.update_of_ne hk]
      have : (k < i + 1) ↔ k < i := by omega
      simp [this]

end Verif
