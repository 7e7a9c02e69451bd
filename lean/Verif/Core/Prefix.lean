/-
Arrays filled from the front: `Pre a N L` says that array `a` has `N` cells and starts with the
values `L`.
-/
import Verif.Core.Rep
import Verif.Core.Lists

namespace Verif

variable {α β : Type}

/-- array `a` has `N` cells, the first of which hold `L` -/
def Pre (a : List α) (N : Nat) (L : List α) : Prop := a.length = N ∧ L <+: a

namespace Pre
variable {a : List α} {N : Nat} {L : List α}

theorem nil (h : a.length = N) : Pre a N [] := ⟨h, List.nil_prefix⟩

theorem le (h : Pre a N L) : L.length ≤ N := by
  have := h.2.length_le
  rw [h.1] at this
  exact this

theorem wr (h : Pre a N L) (v : α) {k : Int} (hk : k = L.length) (hl : L.length < N) :
    ∃ a', Verif.wr a k v = some a' ∧ Pre a' N (L ++ [v]) := by
  subst hk
  refine ⟨a.set L.length v, wr_ofNat (by rw [h.1]; exact hl), by simp [h.1], ?_⟩
  obtain ⟨t, rfl⟩ := h.2
  have hl' := h.1
  rw [List.length_append] at hl'
  match t, hl' with
  | [], hl' => simp at hl'; omega
  | x :: t, _ =>
    refine ⟨t, ?_⟩
    rw [List.set_append_right _ _ (le_refl _)]
    simp

theorem full (h : Pre a N L) (hl : L.length = N) : a = L := by
  obtain ⟨t, ht⟩ := h.2
  have : t = [] := by
    have e := h.1
    rw [← ht, List.length_append] at e
    exact List.length_eq_zero_iff.mp (by omega)
  rw [this, List.append_nil] at ht
  exact ht.symm

theorem rd (h : Pre a N L) {i : Nat} (hi : i < L.length) : Verif.rd a (i : Int) = some L[i] := by
  obtain ⟨t, rfl⟩ := h.2
  rw [rd_ofNat, List.getElem?_append_left hi, List.getElem?_eq_getElem hi]

end Pre

/-- uninitialised memory: `n` cells of arbitrary content -/
def alloc (n : Nat) (g : Nat → α) : List α := (List.range n).map g

@[simp] theorem alloc_length (n : Nat) (g : Nat → α) : (alloc n g).length = n := by simp [alloc]

theorem alloc_pre (n : Nat) (g : Nat → α) : Pre (alloc n g) n [] := Pre.nil (by simp)

/-- a fresh array filled by an upward loop -/
theorem fill_pre {a : List α} {N : Nat} (h : a.length = N) (g : Nat → α)
    {body : Int → List α → Option (List α)}
    (hb : ∀ (i : Nat) s, i < N → body i s = wr s i (g i)) :
    forC 0 N body a = some ((List.range N).map g) := by
  obtain ⟨s, h1, h2⟩ := forC_inv_nat (n := N) (f := body) (s := a)
    (P := fun i s => Pre s N ((List.range i).map g)) (by simpa using Pre.nil h) (by
      intro i s hi hp
      rw [hb i s hi]
      obtain ⟨a', h1, h2⟩ := hp.wr (g i) (k := i) (by simp) (by simpa using hi)
      exact ⟨a', h1, by rw [List.range_succ]; simpa using h2⟩)
  rw [h1, h2.full (by simp)]

/-- invariant rule for a loop over `n` consecutive indices starting anywhere -/
theorem forC_inv_off {σ : Type} {a b : Int} {n : Nat} {f : Int → σ → Option σ} {s : σ}
    (P : Nat → σ → Prop) (hb : b = a + n) (h0 : P 0 s)
    (hs : ∀ (t : Nat) s, t < n → P t s → ∃ s', f (a + t) s = some s' ∧ P (t + 1) s') :
    ∃ s', forC a b f s = some s' ∧ P n s' := by
  subst hb
  have := forC_inv (lo := a) (hi := a + n) (f := f) (s := s) (fun i s => P (i - a).toNat s)
    (by omega) (by simpa using h0)
    (fun i s h1 h2 p => by
      obtain ⟨s', e, p'⟩ := hs (i - a).toNat s (by omega) p
      refine ⟨s', ?_, ?_⟩
      · rwa [show a + (((i - a).toNat : Nat) : Int) = i by omega] at e
      · rwa [show (i + 1 - a).toNat = (i - a).toNat + 1 by omega])
  simpa using this

end Verif
