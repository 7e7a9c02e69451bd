/-
`Csr.get` and its relation to rows and to `Csr.entry`.
-/
import Verif.Proofs.CsrLemmas

namespace Verif
namespace Csr
variable {R : Type} {A : Csr R}

theorem nodup_unique {i : Nat} (hn : ((A.row i).map (·.1)).Nodup) {e e' : Int × R}
    (h : e ∈ A.row i) (h' : e' ∈ A.row i) (heq : e.1 = e'.1) : e = e' :=
  List.inj_on_of_nodup_map hn h h' heq

theorem get_of_mem [Zero R] {i : Nat} (hn : ((A.row i).map (·.1)).Nodup) {c : Int} {v : R}
    (h : (c, v) ∈ A.row i) (hc : 0 ≤ c) : A.get i c.toNat = v := by
  unfold get
  have hc' : ((c.toNat : Nat) : Int) = c := by omega
  rw [hc']
  cases hf : (A.row i).find? (fun e => decide (e.1 = c)) with
  | none =>
    have := List.find?_eq_none.1 hf (c, v) h
    simp at this
  | some e =>
    have h1 := List.mem_of_find?_eq_some hf
    have h2 : e.1 = c := by have := List.find?_some hf; simpa using this
    have := nodup_unique hn h1 h h2
    subst this; rfl

theorem get_of_not_mem [Zero R] {i j : Nat} (h : ∀ v, ((j : Int), v) ∉ A.row i) :
    A.get i j = 0 := by
  unfold get
  rw [List.find?_eq_none.2]
  · rfl
  · rintro ⟨c, v⟩ hm hc
    simp at hc; subst hc; exact h v hm

theorem get_cases [Zero R] (i j : Nat) : (∃ v, ((j : Int), v) ∈ A.row i ∧ A.get i j = v) ∨
    ((∀ v, ((j : Int), v) ∉ A.row i) ∧ A.get i j = 0) := by
  cases hf : (A.row i).find? (fun e => decide (e.1 = (j : Int))) with
  | none =>
    right
    have hn : ∀ v, ((j : Int), v) ∉ A.row i := by
      intro v hv; have := List.find?_eq_none.1 hf _ hv; simp at this
    exact ⟨hn, get_of_not_mem hn⟩
  | some e =>
    left
    have h1 := List.mem_of_find?_eq_some hf
    have h2 : e.1 = j := by have := List.find?_some hf; simpa using this
    refine ⟨e.2, by rw [← h2]; exact h1, by unfold get; rw [hf]; rfl⟩

/-- without duplicates `get` is the denoted entry -/
theorem entry_eq_get [AddCommMonoid R] {i j : Nat} (hn : ((A.row i).map (·.1)).Nodup) :
    A.entry i j = A.get i j := by
  rcases get_cases (A := A) i j with ⟨v, hv, hg⟩ | ⟨hv, hg⟩
  · rw [hg, entry]
    have : (A.row i).filter (fun e => decide (e.1 = (j : Int))) = [((j : Int), v)] := by
      generalize A.row i = L at *
      induction L with
      | nil => simp at hv
      | cons x L ih =>
        simp only [List.map_cons, List.nodup_cons, List.mem_map, not_exists, not_and] at hn
        rcases List.mem_cons.1 hv with h | h
        · subst h
          rw [List.filter_cons, if_pos (by simp), List.filter_eq_nil_iff.2]
          intro e he hc
          simp at hc
          exact hn.1 e he hc
        · rw [List.filter_cons, if_neg]
          · exact ih hn.2 h
          · simp; intro hc; exact hn.1 _ h hc.symm
    rw [this]; simp
  · rw [hg, entry, List.filter_eq_nil_iff.2]
    · simp
    · rintro ⟨c, v⟩ hm hc
      simp at hc; subst hc; exact hv v hm

/-- raw-index version of `forC_row` -/
theorem forC_row_raw {σ : Type} (h : A.WF) {i : Nat} (hi : i < A.m)
    (g : Int → R → σ → Option σ) (s : σ) :
    forC (A.p i - A.base) (A.p (i + 1) - A.base)
      (fun j s => do let c ← rd A.ind j; let v ← rd A.val j; g c v s) s
    = (A.row i).foldlM (fun s e => g (e.1 + A.base) e.2 s) s := by
  have := forC_row h hi (fun c v s => g (c + A.base) v s) s
  simpa using this

/-- A loop over all rows and entries of the matrix. -/
theorem forC_rows {σ : Type} (h : A.WF) (pre : Nat → σ → Option σ)
    (g : Nat → Int → R → σ → Option σ) (s : σ) (body : Int → σ → Option σ)
    (hb : ∀ (i : Nat) s, i < A.m → body i s
      = (pre i s).bind fun s => (A.row i).foldlM (fun s e => g i e.1 e.2 s) s) :
    forC 0 (A.m : Int) body s
      = (List.range A.m).foldlM (fun s i => (pre i s).bind fun s =>
          (A.row i).foldlM (fun s e => g i e.1 e.2 s) s) s := by
  rw [forC_eq_foldlM]
  apply foldlM_congr'
  intro s i hi
  exact hb i s (by simpa using hi)

end Csr
end Verif
