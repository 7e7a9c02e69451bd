/-
An OpenMP parallel region that splits rows `0 .. m-1` among `T` threads:
  start = m * thread_num / T;  end = m * (thread_num + 1) / T;
  for(i = start; i < end; i++) ...
Every thread has its own locals `loc`; `order` lists the threads of the team in the order in
which they run.
Simplification: a thread runs from start to end before the next one begins.  In the regions
modelled here different rows write different cells of the shared arrays.
-/
import Verif.Core.Mem
import Verif.Core.Types
import Verif.Model.Overflow
import Mathlib.Data.List.Perm.Basic

namespace Verif

open Model (chk intMax intMin)

variable {lam σ : Type}

/-- the rows of one thread; `m * (t + 1)` is computed in a `w`-bit integer -/
def threadRows (w : Nat) (T : Nat) (m : Int) (loc : lam) (body : Int → lam × σ → Option (lam × σ))
    (t : Nat) (s : σ) : Option σ := do
  let a ← chk w (m * t)
  let b ← chk w (m * (t + 1))
  let r ← forC (a.tdiv T) (b.tdiv T) body (loc, s)
  some r.2

/-- the whole team -/
def inTeam (w : Nat) (order : List Nat) (T : Nat) (m : Int) (loc : lam)
    (body : Int → lam × σ → Option (lam × σ)) (s : σ) : Option σ :=
  order.foldlM (fun s t => threadRows w T m loc body t s) s

theorem chk_of_le {w : Nat} {x : Int} (h0 : 0 ≤ x) (h1 : x ≤ intMax w) : chk w x = some x := by
  unfold chk
  rw [if_pos]
  refine ⟨?_, h1⟩
  have : intMin w ≤ 0 := by
    unfold intMin
    have : (0 : Int) ≤ 2 ^ (w - 1) := by apply Int.pow_nonneg; omega
    omega
  omega

/-- the chunk of thread `t` -/
def chunk (m T t : Nat) (r : Nat) : Prop := m * t / T ≤ r ∧ r < m * (t + 1) / T

theorem chunk_disjoint {m T t t' r : Nat} (h : chunk m T t r) (h' : chunk m T t' r) : t = t' := by
  rcases Nat.lt_trichotomy t t' with hlt | he | hlt
  · have : m * (t + 1) / T ≤ m * t' / T := Nat.div_le_div_right (Nat.mul_le_mul_left _ hlt)
    have := h.2; have := h'.1; omega
  · exact he
  · have : m * (t' + 1) / T ≤ m * t / T := Nat.div_le_div_right (Nat.mul_le_mul_left _ hlt)
    have := h'.2; have := h.1; omega

theorem chunk_cover {m T r : Nat} (hr : r < m) (hT : 0 < T) : ∃ t, t < T ∧ chunk m T t r := by
  have key : ∀ k, r < m * k / T → ∃ t, t < k ∧ chunk m T t r := by
    intro k
    induction k with
    | zero => intro h; simp at h
    | succ k ih =>
      intro h
      by_cases hk : r < m * k / T
      · obtain ⟨t, ht, hc⟩ := ih hk
        exact ⟨t, by omega, hc⟩
      · exact ⟨k, by omega, by omega, h⟩
  exact key T (by rw [Nat.mul_div_cancel _ hT]; exact hr)

theorem chunk_lt {m T t r : Nat} (ht : t < T) (h : chunk m T t r) : r < m := by
  have h1 : m * (t + 1) / T ≤ m * T / T := Nat.div_le_div_right (Nat.mul_le_mul_left _ ht)
  rw [Nat.mul_div_cancel _ (by omega)] at h1
  have := h.2
  omega

/-- Invariant rule: `P S s` holds of the shared state when the rows in `S` have been done,
`Q i loc` of the locals of a thread about to do row `i`. -/
theorem team_inv {w T m : Nat} {order : List Nat} {loc : lam}
    {body : Int → lam × σ → Option (lam × σ)} {s : σ} (hT : 0 < T)
    (hov : (m : Int) * T ≤ intMax w) (hord : order.Perm (List.range T))
    (P : (Nat → Prop) → σ → Prop) (Q : Nat → lam → Prop)
    (h0 : P (fun _ => False) s) (hQ : ∀ i, Q i loc)
    (step : ∀ S i s l, i < m → ¬ S i → P S s → Q i l →
      ∃ l' s', body (i : Int) (l, s) = some (l', s') ∧ P (fun r => S r ∨ r = i) s' ∧ Q (i + 1) l') :
    ∃ s', inTeam w order T m loc body s = some s' ∧ P (fun r => r < m) s' := by
  have hthread : ∀ t, t < T → ∀ S s, (∀ r, chunk m T t r → ¬ S r) → P S s →
      ∃ s', threadRows w T m loc body t s = some s' ∧ P (fun r => S r ∨ chunk m T t r) s' := by
    intro t ht S s hS hP
    have h1 : (m : Int) * (t : Int) ≤ (m : Int) * T := Int.mul_le_mul_of_nonneg_left (by omega) (by omega)
    have h2 : (m : Int) * ((t : Int) + 1) ≤ (m : Int) * T :=
      Int.mul_le_mul_of_nonneg_left (by omega) (by omega)
    unfold threadRows
    rw [chk_of_le (Int.mul_nonneg (by omega) (by omega)) (by omega),
      chk_of_le (Int.mul_nonneg (by omega) (by omega)) (by omega)]
    have e1 : ((m : Int) * (t : Int)).tdiv T = ((m * t / T : Nat) : Int) := by
      rw [Int.tdiv_eq_ediv_of_nonneg (Int.mul_nonneg (by omega) (by omega))]; simp
    have e2 : ((m : Int) * ((t : Int) + 1)).tdiv T = ((m * (t + 1) / T : Nat) : Int) := by
      rw [Int.tdiv_eq_ediv_of_nonneg (Int.mul_nonneg (by omega) (by omega))]; simp
    simp only [Option.bind_eq_bind, Option.bind_some, e1, e2]
    have hle : m * t / T ≤ m * (t + 1) / T :=
      Nat.div_le_div_right (Nat.mul_le_mul_left _ (by omega))
    have hlem : ∀ r, r < m * (t + 1) / T → m * t / T ≤ r → r < m :=
      fun r h h' => chunk_lt ht ⟨h', h⟩
    obtain ⟨r, hr, hPr⟩ := forC_inv (f := body)
      (P := fun k (st : lam × σ) => ∃ n : Nat, k = (n : Int) ∧ m * t / T ≤ n ∧
        P (fun r => S r ∨ (m * t / T ≤ r ∧ r < n)) st.2 ∧ Q n st.1)
      (s := (loc, s)) (lo := ((m * t / T : Nat) : Int)) (hi := ((m * (t + 1) / T : Nat) : Int))
      (by omega) ⟨m * t / T, rfl, Nat.le_refl _, by
        convert hP using 3
        constructor
        · rintro (h | h)
          · exact h
          · omega
        · exact Or.inl, hQ _⟩
      (by
        rintro k ⟨l, s⟩ hk1 hk2 ⟨n, rfl, hn, hp, hq⟩
        have hn2 : n < m * (t + 1) / T := by omega
        obtain ⟨l', s', hb, hp', hq'⟩ := step _ n s l (hlem n hn2 hn)
          (by
            rintro (h | h)
            · exact hS n ⟨hn, hn2⟩ h
            · omega) hp hq
        refine ⟨(l', s'), hb, n + 1, by push_cast; rfl, by omega, ?_, hq'⟩
        refine Eq.mp (congrArg (fun p => P p s') (funext fun r => propext ?_)) hp'
        constructor
        · rintro ((h | h) | h)
          · exact Or.inl h
          · exact Or.inr ⟨h.1, by omega⟩
          · exact Or.inr ⟨by omega, by omega⟩
        · rintro (h | h)
          · exact Or.inl (Or.inl h)
          · by_cases hh : r = n
            · exact Or.inr hh
            · exact Or.inl (Or.inr ⟨h.1, by omega⟩))
    obtain ⟨n, hn, hn2, hp, -⟩ := hPr
    refine ⟨r.2, by rw [hr]; rfl, ?_⟩
    have : n = m * (t + 1) / T := by omega
    subst this
    exact hp
  have key : ∀ (L : List Nat) S s, L.Nodup → (∀ t ∈ L, t < T) →
      (∀ t ∈ L, ∀ r, chunk m T t r → ¬ S r) → P S s →
      ∃ s', L.foldlM (fun s t => threadRows w T m loc body t s) s = some s' ∧
        P (fun r => S r ∨ ∃ t ∈ L, chunk m T t r) s' := by
    intro L
    induction L with
    | nil => intro S s _ _ _ hP; exact ⟨s, rfl, by simpa using hP⟩
    | cons t L ih =>
      intro S s hnd hlt hS hP
      obtain ⟨s1, e1, h1⟩ := hthread t (hlt t (by simp)) S s (hS t (by simp)) hP
      obtain ⟨s2, e2, h2⟩ := ih _ s1 (List.nodup_cons.mp hnd).2
        (fun t' ht' => hlt t' (by simp [ht']))
        (by
          intro t' ht' r hr
          rintro (h | h)
          · exact hS t' (by simp [ht']) r hr h
          · have := chunk_disjoint hr h
            subst this
            exact (List.nodup_cons.mp hnd).1 ht') h1
      refine ⟨s2, by rw [List.foldlM_cons, e1]; exact e2, ?_⟩
      convert h2 using 2
      simp [or_assoc]
  obtain ⟨s', e, hp⟩ := key order (fun _ => False) s (hord.nodup_iff.mpr List.nodup_range)
    (fun t ht => by simpa using hord.mem_iff.mp ht) (fun _ _ _ _ h => h) h0
  refine ⟨s', e, ?_⟩
  convert hp using 3
  constructor
  · intro hr
    obtain ⟨t, ht, hc⟩ := chunk_cover hr hT
    exact Or.inr ⟨t, hord.mem_iff.mpr (by simpa using ht), hc⟩
  · rintro (h | ⟨t, ht, hc⟩)
    · exact h.elim
    · exact chunk_lt (by simpa using hord.mem_iff.mp ht) hc

/-- If `m * T` does not fit, computing the last chunk is signed overflow. -/
theorem team_overflow {w T m : Nat} {order : List Nat} {loc : lam}
    {body : Int → lam × σ → Option (lam × σ)} {s : σ} (hT : 0 < T)
    (hov : intMax w < (m : Int) * T) (hord : T - 1 ∈ order) :
    inTeam w order T m loc body s = none := by
  unfold inTeam
  have h1 : ∀ s, threadRows w T m loc body (T - 1) s = none := by
    intro s
    unfold threadRows
    have e : ((T - 1 : Nat) : Int) + 1 = T := by omega
    have : chk w ((m : Int) * (((T - 1 : Nat) : Int) + 1)) = none := by
      rw [e]; unfold chk; rw [if_neg (by omega)]
    rw [this]
    cases chk w ((m : Int) * ((T - 1 : Nat) : Int)) <;> rfl
  induction order generalizing s with
  | nil => simp at hord
  | cons t L ih =>
    rw [List.foldlM_cons]
    rcases List.mem_cons.mp hord with rfl | h
    · rw [h1]; rfl
    · cases threadRows w T m loc body t s with
      | none => rfl
      | some s' => exact ih h

end Verif
