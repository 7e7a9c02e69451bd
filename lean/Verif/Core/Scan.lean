/-
Early-return loops over a piece of a compressed row, as a recursion over its entries.
-/
import Verif.Proofs.Seg

namespace Verif

variable {R σ ε : Type}

/-- visit the entries of `S` in order, the first at position `k`, until an early return -/
def scanE (f : Int → Int → σ → Except ε σ) : Int → List (Int × R) → σ → Except ε σ
  | _, [], s => .ok s
  | k, e :: S, s =>
    match f k e.1 s with
    | .error x => .error x
    | .ok s' => scanE f (k + 1) S s'

theorem forE_ge {lo hi : Int} (h : hi ≤ lo) (f : Int → σ → Option (Except ε σ)) (s : σ) :
    forE lo hi f s = some (.ok s) := by
  have : (hi - lo).toNat = 0 := by omega
  simp [forE, this, forEN]

theorem forE_lt {lo hi : Int} (h : lo < hi) (f : Int → σ → Option (Except ε σ)) (s : σ) :
    forE lo hi f s = match f lo s with
      | none => none
      | some (.error e) => some (.error e)
      | some (.ok s') => forE (lo + 1) hi f s' := by
  have : (hi - lo).toNat = (hi - (lo + 1)).toNat + 1 := by omega
  unfold forE
  rw [this]
  rfl

/-- the stored index of an entry in column `j` is `j + base` -/
theorem Seg.forE {ind : List Int} {val : List R} {base lo hi : Int} {S : List (Int × R)}
    (h : Seg ind val base lo hi S) (f : Int → Int → σ → Except ε σ) (s : σ) :
    Verif.forE (lo - base) (hi - base) (fun idx s => do
      let c ← Verif.rd ind idx
      some (f idx c s)) s
      = some (scanE (fun idx j s => f idx (j + base) s) (lo - base) S s) := by
  induction S generalizing lo s with
  | nil => rw [forE_ge (by have := h.1; simp at this; omega)]; rfl
  | cons e S ih =>
    have hl := h.1
    simp only [List.length_cons] at hl
    obtain ⟨h1, _⟩ := h.2 0 (by simp)
    simp only [Nat.cast_zero, add_zero, List.getElem_cons_zero] at h1
    rw [forE_lt (by omega), h1]
    simp only [Option.bind_eq_bind, Option.bind_some, scanE]
    cases f (lo - base) (e.1 + base) s with
    | error x => rfl
    | ok s' =>
      have hr : Seg ind val base (lo + 1) hi S := by
        have := append_right (S1 := [e]) (S2 := S) h
        simpa using this
      have := ih hr s'
      rw [show lo + 1 - base = lo - base + 1 by ring] at this
      exact this

theorem scanE_inv {f : Int → Int → σ → Except ε σ} {k : Int} {S : List (Int × R)} {s : σ}
    (P : List (Int × R) → σ → Prop) (Q : ε → Prop) (h0 : P [] s)
    (hs : ∀ pre x suf s, S = pre ++ x :: suf → P pre s →
      (∃ s', f (k + pre.length) x.1 s = .ok s' ∧ P (pre ++ [x]) s') ∨
      (∃ e, f (k + pre.length) x.1 s = .error e ∧ Q e)) :
    (∃ s', scanE f k S s = .ok s' ∧ P S s') ∨ (∃ e, scanE f k S s = .error e ∧ Q e) := by
  suffices H : ∀ (T pre : List (Int × R)) s, S = pre ++ T → P pre s →
      (∃ s', scanE f (k + pre.length) T s = .ok s' ∧ P S s') ∨
      (∃ e, scanE f (k + pre.length) T s = .error e ∧ Q e) by
    simpa using H S [] s rfl h0
  intro T
  induction T with
  | nil => intro pre s h hp; left; exact ⟨s, rfl, by rw [h]; simpa using hp⟩
  | cons x T ih =>
    intro pre s h hp
    rcases hs pre x T s h hp with ⟨s', h1, h2⟩ | ⟨e, h1, h2⟩
    · have := ih (pre ++ [x]) s' (by simp [h]) h2
      simp only [scanE, h1]
      rw [List.length_append, List.length_singleton] at this
      push_cast at this
      rw [← add_assoc] at this
      exact this
    · right
      exact ⟨e, by simp only [scanE, h1], h2⟩

theorem scanE_append (f : Int → Int → σ → Except ε σ) (k : Int) (S T : List (Int × R)) (s : σ) :
    scanE f k (S ++ T) s = match scanE f k S s with
      | .error e => .error e
      | .ok s' => scanE f (k + S.length) T s' := by
  induction S generalizing k s with
  | nil => simp [scanE]
  | cons x S ih =>
    simp only [List.cons_append, scanE]
    cases f k x.1 s with
    | error e => rfl
    | ok s' =>
      simp only [ih]
      rw [List.length_cons]
      push_cast
      rw [show k + ((S.length : Int) + 1) = k + 1 + S.length by ring]

/-- entries that do not stop the scan are skipped -/
theorem scanE_skip {f : Int → Int → Unit → Except ε Unit} {k : Int} {S : List (Int × R)}
    (h : ∀ e ∈ S, ∀ i, f i e.1 () = .ok ()) : scanE f k S () = .ok () := by
  induction S generalizing k with
  | nil => rfl
  | cons x S ih =>
    simp only [scanE, h x (by simp)]
    exact ih (fun e he => h e (by simp [he]))

end Verif
