/-
Generic list lemmas used by the proofs.
-/
import Verif.Core.Mem
import Mathlib.Data.List.Basic
import Mathlib.Tactic.Ring
namespace Verif


variable {α : Type} {β : Type} {σ : Type}

/-- A loop that reads two parallel arrays is a fold over their zip. -/
theorem forN_zip {ind : List α} {val : List β} (g : α → β → σ → Option σ) :
    ∀ (k lo : Nat) (s : σ), lo + k ≤ ind.length → lo + k ≤ val.length →
    forN (fun j s => do let c ← rd ind j; let v ← rd val j; g c v s) k (lo : Int) s
      = (((ind.zip val).drop lo).take k).foldlM (fun s cv => g cv.1 cv.2 s) s
  | 0, lo, s, _, _ => by simp
  | k + 1, lo, s, h1, h2 => by
    have hi : lo < ind.length := by omega
    have hv : lo < val.length := by omega
    have hz : lo < (ind.zip val).length := by simp; omega
    rw [List.drop_eq_getElem_cons hz]
    simp only [forN, List.take_succ_cons, List.foldlM_cons, rd_ofNat, List.getElem?_eq_getElem hi,
      List.getElem?_eq_getElem hv, Option.bind_eq_bind, Option.bind_some, List.getElem_zip]
    congr 1
    funext s'
    have := forN_zip (ind := ind) (val := val) g k (lo + 1) s' (by omega) (by omega)
    have e : ((lo : Int) + 1) = ((lo + 1 : Nat) : Int) := by omega
    rw [e]
    simpa using this

theorem forC_zip {ind : List α} {val : List β} (g : α → β → σ → Option σ) {lo hi : Int} {s : σ}
    (h0 : 0 ≤ lo) (h1 : hi ≤ ind.length) (h2 : hi ≤ val.length) :
    forC lo hi (fun j s => do let c ← rd ind j; let v ← rd val j; g c v s) s
      = (((ind.zip val).drop lo.toNat).take (hi - lo).toNat).foldlM
          (fun s cv => g cv.1 cv.2 s) s := by
  by_cases hle : lo ≤ hi
  · have := forN_zip (ind := ind) (val := val) g (hi - lo).toNat lo.toNat s (by omega) (by omega)
    rw [show ((lo.toNat : Nat) : Int) = lo by omega] at this
    exact this
  · rw [forC_ge (by omega)]
    have : (hi - lo).toNat = 0 := by omega
    simp [this]

/-- A loop that reads one array is a fold over a segment of it. -/
theorem forN_list {ind : List α} (g : α → σ → Option σ) :
    ∀ (k lo : Nat) (s : σ), lo + k ≤ ind.length →
    forN (fun j s => do let c ← rd ind j; g c s) k (lo : Int) s
      = ((ind.drop lo).take k).foldlM (fun s c => g c s) s
  | 0, lo, s, _ => by simp
  | k + 1, lo, s, h1 => by
    have hi : lo < ind.length := by omega
    rw [List.drop_eq_getElem_cons hi]
    simp only [forN, List.take_succ_cons, List.foldlM_cons, rd_ofNat, List.getElem?_eq_getElem hi,
      Option.bind_eq_bind, Option.bind_some]
    congr 1
    funext s'
    have := forN_list (ind := ind) g k (lo + 1) s' (by omega)
    have e : ((lo : Int) + 1) = ((lo + 1 : Nat) : Int) := by omega
    rw [e]
    simpa using this

theorem forC_list {ind : List α} (g : α → σ → Option σ) {lo hi : Int} {s : σ}
    (h0 : 0 ≤ lo) (h1 : hi ≤ ind.length) :
    forC lo hi (fun j s => do let c ← rd ind j; g c s) s
      = ((ind.drop lo.toNat).take (hi - lo).toNat).foldlM (fun s c => g c s) s := by
  by_cases hle : lo ≤ hi
  · have := forN_list (ind := ind) g (hi - lo).toNat lo.toNat s (by omega)
    rw [show ((lo.toNat : Nat) : Int) = lo by omega] at this
    exact this
  · rw [forC_ge (by omega)]
    have : (hi - lo).toNat = 0 := by omega
    simp [this]

theorem foldlM_map' {γ : Type} (f : σ → β → Option σ) (h : γ → β) (l : List γ) (s : σ) :
    (l.map h).foldlM f s = l.foldlM (fun s x => f s (h x)) s := by
  induction l generalizing s with
  | nil => rfl
  | cons x l ih =>
    simp only [List.map_cons, List.foldlM_cons]
    congr 1; funext s'; exact ih s'

theorem foldlM_flatMap' {γ : Type} (f : σ → β → Option σ) (h : γ → List β) (l : List γ) (s : σ) :
    (l.flatMap h).foldlM f s = l.foldlM (fun s x => (h x).foldlM f s) s := by
  induction l generalizing s with
  | nil => rfl
  | cons x l ih =>
    simp only [List.flatMap_cons, List.foldlM_append, List.foldlM_cons]
    congr 1; funext s'; exact ih s'

theorem foldlM_congr' {f g : σ → β → Option σ} {l : List β} {s : σ}
    (h : ∀ s x, x ∈ l → f s x = g s x) : l.foldlM f s = l.foldlM g s := by
  induction l generalizing s with
  | nil => rfl
  | cons x l ih =>
    simp only [List.foldlM_cons]
    rw [h s x (by simp)]
    congr 1; funext s'; exact ih (fun s y hy => h s y (by simp [hy]))

/-- A fold whose body never fails is a pure fold. -/
theorem foldlM_pure {f : σ → β → σ} {l : List β} {s : σ} :
    l.foldlM (fun s x => some (f s x)) s = some (l.foldl f s) := by
  induction l generalizing s with
  | nil => rfl
  | cons x l ih => simp [ih]

end Verif
namespace Verif
variable {α σ ε : Type}

/-- Early-return loop over a segment of an array, indexed by the consumed prefix. -/
theorem forE_list_inv {ind : List α} {f : α → σ → Except ε σ} {lo hi : Int} {s : σ}
    (P : List α → σ → Prop) (Q : ε → Prop) (hlo : 0 ≤ lo) (hle : lo ≤ hi) (hhi : hi ≤ ind.length)
    (h0 : P [] s)
    (hs : ∀ pre x suf s, ((ind.drop lo.toNat).take (hi - lo).toNat) = pre ++ x :: suf → P pre s →
      (∃ s', f x s = .ok s' ∧ P (pre ++ [x]) s') ∨ (∃ e, f x s = .error e ∧ Q e)) :
    (∃ s', forE lo hi (fun i s => do let c ← rd ind i; some (f c s)) s = some (.ok s') ∧
        P ((ind.drop lo.toNat).take (hi - lo).toNat) s') ∨
    (∃ e, forE lo hi (fun i s => do let c ← rd ind i; some (f c s)) s = some (.error e) ∧ Q e) := by
  refine forE_inv (P := fun i s => P ((ind.drop lo.toNat).take (i - lo).toNat) s) (Q := Q) hle
    (by simpa using h0) ?_
  intro i s hi0 hi1 hp
  have hlt : i.toNat < ind.length := by omega
  rw [rd_getElem (by omega) hlt]
  simp only [Option.bind_eq_bind, Option.bind_some]
  have e : (ind.drop lo.toNat).take (i + 1 - lo).toNat
      = (ind.drop lo.toNat).take (i - lo).toNat ++ [ind[i.toNat]] := by
    have h1 : (i + 1 - lo).toNat = (i - lo).toNat + 1 := by omega
    rw [h1, List.take_add_one, List.getElem?_drop]
    have h2 : lo.toNat + (i - lo).toNat = i.toNat := by omega
    rw [h2, List.getElem?_eq_getElem hlt]; rfl
  rw [e]
  have hsplit : ((ind.drop lo.toNat).take (hi - lo).toNat)
      = (ind.drop lo.toNat).take (i - lo).toNat ++ ind[i.toNat] ::
        ((ind.drop (i.toNat + 1)).take (hi - i - 1).toNat) := by
    have h1 : (hi - lo).toNat = (i - lo).toNat + (1 + (hi - i - 1).toNat) := by omega
    rw [h1, List.take_add, List.drop_drop]
    have h2 : lo.toNat + (i - lo).toNat = i.toNat := by omega
    rw [h2, List.drop_eq_getElem_cons hlt, Nat.add_comm 1, List.take_succ_cons]
  rcases hs _ _ _ s hsplit hp with ⟨s', h1, h2⟩ | ⟨e', h1, h2⟩
  · exact .inl ⟨s', by rw [h1], h2⟩
  · exact .inr ⟨e', by rw [h1], h2⟩

end Verif
