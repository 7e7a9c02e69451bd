/-
The loops of the GMRES solver: they stay inside their arrays, and what they leave.
-/
import Verif.Model.GmTalk
import Verif.Core.Mem

namespace Verif
namespace Proofs
open Model

section
variable {α : Type} [Zero α]

theorem rd_at {a : List α} {p : Nat} (h : p < a.length) : rd a (p : Int) = some (a.getD p 0) := by
  rw [rd_ofNat, List.getD_eq_getElem?_getD, List.getElem?_eq_getElem h]; rfl

theorem at_congr {a b : List α} {p : Nat} (h : a[p]? = b[p]?) : a.getD p 0 = b.getD p 0 := by
  rw [List.getD_eq_getElem?_getD, List.getD_eq_getElem?_getD, h]

theorem at_set_eq {a : List α} {p : Nat} (v : α) (h : p < a.length) : (a.set p v).getD p 0 = v := by
  rw [List.getD_eq_getElem?_getD, List.getElem?_set_self h]; rfl

theorem at_set_ne {a : List α} {p q : Nat} (v : α) (h : p ≠ q) : (a.set p v).getD q 0 = a.getD q 0 := by
  rw [List.getD_eq_getElem?_getD, List.getD_eq_getElem?_getD, List.getElem?_set_ne h]

/-- a loop that writes one entry per pass, each at its own place -/
theorem wrLoop {k : Nat} (pos : Nat → Nat) (val : Nat → α) (body : Int → List α → Option (List α)) (a0 : List α)
    (hpos : ∀ i, i < k → pos i < a0.length) (hinj : ∀ i i', i < k → i' < k → pos i = pos i' → i = i')
    (hb : ∀ i, i < k → ∀ a : List α, a.length = a0.length →
      (∀ p, (∀ i', i' < i → p ≠ pos i') → a[p]? = a0[p]?) → body (i : Int) a = wr a ((pos i : Nat) : Int) (val i)) :
    ∃ a, forC 0 (k : Int) body a0 = some a ∧ a.length = a0.length ∧ (∀ i, i < k → a.getD (pos i) 0 = val i) ∧
      ∀ p, (∀ i, i < k → p ≠ pos i) → a[p]? = a0[p]? := by
  refine forC_inv_nat (P := fun i a => a.length = a0.length ∧ (∀ i', i' < i → a.getD (pos i') 0 = val i') ∧
    ∀ p, (∀ i', i' < i → p ≠ pos i') → a[p]? = a0[p]?) ⟨rfl, by omega, fun _ _ => rfl⟩ ?_
  rintro i a hi ⟨h1, h2, h3⟩
  refine ⟨a.set (pos i) (val i), ?_, by simp [h1], ?_, ?_⟩
  · rw [hb i hi a h1 h3, wr_ofNat (by rw [h1]; exact hpos i hi)]
  · intro i' hi'
    rcases Nat.lt_succ_iff_lt_or_eq.1 hi' with h | h
    · rw [at_set_ne _ (fun e => by have := hinj i i' hi (by omega) e; omega), h2 i' h]
    · subst h
      exact at_set_eq _ (by rw [h1]; exact hpos _ hi)
  · intro p hp
    rw [List.getElem?_set_ne (fun e => hp i (by omega) e.symm)]
    exact h3 p fun i' hi' => hp i' (by omega)

end

section
variable {R F : Type} [Zero R] [Neg R] [Add R] [Sub R] [Mul R] [Div R] {num : GNum R F}

/-- the value of a dot product -/
def dotv (num : GNum R F) (f h : Nat → R) : Nat → R
  | 0 => 0
  | k + 1 => dotv num f h k + num.conj (f k) * h k

theorem gdot_at {k oa ia ob ib : Nat} {a b : List R} (ha : ∀ i, i < k → oa + i * ia < a.length)
    (hb : ∀ i, i < k → ob + i * ib < b.length) :
    gdot num k a oa ia b ob ib =
      some (dotv num (fun i => a.getD (oa + i * ia) 0) (fun i => b.getD (ob + i * ib) 0) k) := by
  unfold gdot
  obtain ⟨s, h1, h2⟩ := forC_inv_nat (n := k) (f := gdotBody num a oa ia b ob ib) (s := (0 : R))
    (P := fun i s => s = dotv num (fun i => a.getD (oa + i * ia) 0) (fun i => b.getD (ob + i * ib) 0) i) rfl (by
      rintro i s hi rfl
      refine ⟨_, ?_, rfl⟩
      unfold gdotBody
      have e1 : (oa : Int) + (i : Int) * (ia : Int) = ((oa + i * ia : Nat) : Int) := by push_cast; ring
      have e2 : (ob : Int) + (i : Int) * (ib : Int) = ((ob + i * ib : Nat) : Int) := by push_cast; ring
      rw [e1, e2, rd_at (ha i hi), rd_at (hb i hi)]
      rfl)
  rw [h1, h2]

theorem gnrm_at {n off : Nat} {a : List R} (h : off + n ≤ a.length) :
    gnrm num n a off = some (num.nrm ((a.drop off).take n)) := by
  unfold gnrm
  rw [if_pos (by omega)]
  simp

/-- the entries of a window -/
theorem window_at {n off : Nat} {a : List R} (h : off + n ≤ a.length) :
    (a.drop off).take n = (List.range n).map fun i => a.getD (off + i) 0 := by
  apply List.ext_getElem?
  intro i
  rw [List.getElem?_take]
  by_cases hi : i < n
  · rw [if_pos hi, List.getElem?_drop, List.getElem?_map, List.getElem?_range hi, Option.map_some,
      List.getD_eq_getElem?_getD, List.getElem?_eq_getElem (by omega)]
    rfl
  · rw [if_neg hi, List.getElem?_eq_none (by simp; omega)]

/-- v = b - v -/
theorem axpby_loop {n : Nat} {b v : List R} (hb : b.length = n) (hv : n ≤ v.length) :
    ∃ v', forC 0 (n : Int) (axpbyBody b) v = some v' ∧ v'.length = v.length ∧
      (∀ i, i < n → v'.getD i 0 = b.getD i 0 - v.getD i 0) ∧ ∀ p, n ≤ p → v'[p]? = v[p]? := by
  obtain ⟨v', h1, h2, h3, h4⟩ := wrLoop (k := n) (fun i => i) (fun i => b.getD i 0 - v.getD i 0) (axpbyBody b) v
    (fun i hi => by omega) (fun _ _ _ _ e => e) (by
      intro i hi a ha hf
      unfold axpbyBody
      rw [rd_at (by omega), rd_at (by omega)]
      simp only [Option.bind_eq_bind, Option.bind_some]
      rw [at_congr (hf i (by intro i' hi'; omega))])
  exact ⟨v', h1, h2, h3, fun p hp => h4 p (by intro i hi; omega)⟩

/-- v[off..off+n) scaled -/
theorem scal_loop {n off : Nat} {v : List R} (f : F) (hv : off + n ≤ v.length) :
    ∃ v', forC 0 (n : Int) (scalBody num f off) v = some v' ∧ v'.length = v.length ∧
      (∀ i, i < n → v'.getD (off + i) 0 = num.smul f (v.getD (off + i) 0)) ∧
      ∀ p, (p < off ∨ off + n ≤ p) → v'[p]? = v[p]? := by
  obtain ⟨v', h1, h2, h3, h4⟩ := wrLoop (k := n) (fun i => off + i) (fun i => num.smul f (v.getD (off + i) 0))
    (scalBody num f off) v (fun i hi => by omega) (fun _ _ _ _ e => by omega) (by
      intro i hi a ha hf
      unfold scalBody
      have e1 : (off : Int) + (i : Int) = ((off + i : Nat) : Int) := by push_cast; ring
      rw [e1, rd_at (by omega)]
      simp only [Option.bind_eq_bind, Option.bind_some]
      rw [at_congr (hf (off + i) (by intro i' hi'; omega))])
  exact ⟨v', h1, h2, h3, fun p hp => h4 p (by intro i hi; omega)⟩

theorem row_le {n m i : Nat} (h : i ≤ m) : i * n + n ≤ (m + 1) * n := by
  have : i * n ≤ m * n := Nat.mul_le_mul_right n h
  have e : (m + 1) * n = m * n + n := by ring
  omega

theorem cell_lt {n m i t : Nat} (h : i ≤ m) (ht : t < n) : i * n + t < (m + 1) * n := by
  have := row_le (n := n) h
  omega

theorem sq_lt {m i j : Nat} (hi : i < m) (hj : j < m) : i * m + j < m * m := by
  have : (i + 1) * m ≤ m * m := Nat.mul_le_mul_right m hi
  have e : (i + 1) * m = i * m + m := by ring
  omega

theorem cell_inj {m i i' j : Nat} (hm : 0 < m) (h : i * m + j = i' * m + j) : i = i' :=
  Nat.eq_of_mul_eq_mul_right hm (by omega)

/-- the new column of the Hessenberg matrix -/
theorem hess_loop {n m j : Nat} {v h : List R} (hv : v.length = (m + 1) * n) (hh : h.length = m * m) (hj : j < m) :
    ∃ h', forC 0 ((j : Int) + 1) (hessBody num n m j v) h = some h' ∧ h'.length = h.length ∧
      (∀ i, i < j + 1 → h'.getD (i * m + j) 0 =
        dotv num (fun t => v.getD ((j + 1) * n + t) 0) (fun t => v.getD (i * n + t) 0) n) ∧
      ∀ p, (∀ i, i < j + 1 → p ≠ i * m + j) → h'[p]? = h[p]? := by
  have e0 : ((j : Int) + 1) = ((j + 1 : Nat) : Int) := by push_cast; ring
  rw [e0]
  refine wrLoop (k := j + 1) (fun i => i * m + j) (fun i => dotv num (fun t => v.getD ((j + 1) * n + t) 0)
    (fun t => v.getD (i * n + t) 0) n) (hessBody num n m j v) h (fun i hi => by rw [hh]; exact sq_lt (by omega) hj)
    (fun i i' _ _ e => cell_inj (by omega) e) ?_
  intro i hi a ha hf
  unfold hessBody
  have e1 : ((j : Int) + 1) * (n : Int) = (((j + 1) * n : Nat) : Int) := by push_cast; ring
  have e2 : (i : Int) * (n : Int) = ((i * n : Nat) : Int) := by push_cast; ring
  have e3 : (i : Int) * (m : Int) + (j : Int) = ((i * m + j : Nat) : Int) := by push_cast; ring
  have := gdot_at (num := num) (k := n) (oa := (j + 1) * n) (ia := 1) (ob := i * n) (ib := 1) (a := v) (b := v)
    (fun t ht => by rw [hv]; have := cell_lt (n := n) (m := m) (i := j + 1) (t := t) (by omega) ht; omega)
    (fun t ht => by rw [hv]; have := cell_lt (n := n) (m := m) (i := i) (t := t) (by omega) ht; omega)
  rw [Nat.cast_one] at this
  rw [e1, e2, e3, this]
  simp only [Option.bind_eq_bind, Option.bind_some, Nat.mul_one]

/-- the orthogonalisation -/
theorem orth_loop {n m j : Nat} {v h : List R} (hv : v.length = (m + 1) * n) (hh : h.length = m * m) (hj : j < m) :
    ∃ v', forC 0 (n : Int) (orthBody num n m j h) v = some v' ∧ v'.length = v.length ∧
      (∀ t, t < n → v'.getD ((j + 1) * n + t) 0 = v.getD ((j + 1) * n + t) 0 -
        dotv num (fun i => h.getD (i * m + j) 0) (fun i => v.getD (i * n + t) 0) (j + 1)) ∧
      ∀ p, (p < (j + 1) * n ∨ (j + 1) * n + n ≤ p) → v'[p]? = v[p]? := by
  have key := wrLoop (k := n) (fun t => (j + 1) * n + t) (fun t => v.getD ((j + 1) * n + t) 0 -
        dotv num (fun i => h.getD (i * m + j) 0) (fun i => v.getD (i * n + t) 0) (j + 1)) (orthBody num n m j h) v
    (fun t ht => by rw [hv]; exact cell_lt (by omega) ht) (fun _ _ _ _ e => by omega) ?_
  · obtain ⟨v', h1, h2, h3, h4⟩ := key
    exact ⟨v', h1, h2, h3, fun p hp => h4 p (by intro i hi; omega)⟩
  intro t ht a ha hf
  unfold orthBody
  have e0 : ((j : Int) + 1) = ((j + 1 : Nat) : Int) := by push_cast; ring
  have e1 : ((j + 1 : Nat) : Int) * (n : Int) + (t : Int) = (((j + 1) * n + t : Nat) : Int) := by push_cast; ring
  have hd := gdot_at (num := num) (k := j + 1) (oa := j) (ia := m) (ob := t) (ib := n) (a := h) (b := a)
    (fun i hi => by rw [hh]; have := sq_lt (m := m) (i := i) (j := j) (by omega) hj; omega)
    (fun i hi => by rw [ha, hv]; have := cell_lt (n := n) (m := m) (i := i) (t := t) (by omega) ht; omega)
  have hsame : ∀ p, p < (j + 1) * n → a.getD p 0 = v.getD p 0 := fun p hp => at_congr (hf p (by intro i' hi'; omega))
  have hrow : ∀ i, i < j + 1 → a.getD (t + i * n) 0 = v.getD (i * n + t) 0 := by
    intro i hi
    rw [Nat.add_comm]
    have : i * n + n ≤ (j + 1) * n := by
      have := Nat.mul_le_mul_right n (show i + 1 ≤ j + 1 from hi)
      have e : (i + 1) * n = i * n + n := by ring
      omega
    exact hsame _ (by omega)
  have hdot : ∀ k, k ≤ j + 1 → dotv num (fun i => h.getD (j + i * m) 0) (fun i => a.getD (t + i * n) 0) k =
      dotv num (fun i => h.getD (i * m + j) 0) (fun i => v.getD (i * n + t) 0) k := by
    intro k
    induction k with
    | zero => intro _; rfl
    | succ k ih =>
      intro hk
      rw [dotv, dotv, ih (by omega), hrow k (by omega), Nat.add_comm j]
  rw [hdot (j + 1) (le_refl _)] at hd
  rw [e0, e1, hd, rd_at (by rw [ha, hv]; exact cell_lt (by omega) ht)]
  simp only [Option.bind_eq_bind, Option.bind_some]
  rw [at_congr (hf ((j + 1) * n + t) (by intro i' hi'; omega))]

/-- the earlier rotations -/
theorem rot_loop {m j : Nat} {h s : List R} {c : List F} (hh : h.length = m * m) (hs : s.length = m)
    (hc : c.length = m) (hj : j < m) :
    ∃ h', forC 0 (j : Int) (rotBody num m j c s) h = some h' ∧ h'.length = h.length ∧
      ∀ p, (∀ i, i < j + 1 → p ≠ i * m + j) → h'[p]? = h[p]? := by
  refine forC_inv_nat (P := fun _ a => a.length = h.length ∧ ∀ p, (∀ i, i < j + 1 → p ≠ i * m + j) → a[p]? = h[p]?)
    ⟨rfl, fun _ _ => rfl⟩ ?_
  rintro i a hi ⟨ha, hf⟩
  unfold rotBody
  have e1 : (i : Int) * (m : Int) + (j : Int) = ((i * m + j : Nat) : Int) := by push_cast; ring
  have e2 : ((i : Int) + 1) * (m : Int) + (j : Int) = (((i + 1) * m + j : Nat) : Int) := by push_cast; ring
  have l1 : i * m + j < a.length := by rw [ha, hh]; exact sq_lt (by omega) hj
  have l2 : (i + 1) * m + j < a.length := by rw [ha, hh]; exact sq_lt (by omega) hj
  obtain ⟨ci, hci⟩ := rd_exists (a := c) (i := (i : Int)) (by omega) (by omega)
  rw [e1, e2, rd_at l1, rd_at l2, hci, rd_at (by omega)]
  simp only [Option.bind_eq_bind, Option.bind_some]
  rw [wr_ofNat l1]
  simp only [Option.bind_some]
  rw [wr_ofNat (by simpa using l2)]
  refine ⟨_, rfl, by simp [ha], ?_⟩
  intro p hp
  rw [List.getElem?_set_ne (fun e => hp (i + 1) (by omega) e.symm),
    List.getElem?_set_ne (fun e => hp i (by omega) e.symm)]
  exact hf p hp

/-- the backward substitution: it stays inside the arrays -/
theorem back_total {m : Nat} {r gl : List R} (hr : r.length = m * m) (hg : m ≤ gl.length) (k : Nat) (hk : k ≤ m)
    (y : List R) (hy : y.length = m) :
    ∃ q, backSolve num m m r gl k y = some q ∧ q.2.length = m ∧ (q.1 = .success ∨ q.1 = .numericalError) := by
  induction k generalizing y with
  | zero => exact ⟨_, rfl, hy, Or.inl rfl⟩
  | succ k ih =>
    unfold backSolve
    dsimp only
    rw [rd_at (by omega), Option.bind_eq_bind, Option.bind_some, wr_ofNat (by omega), Option.bind_eq_bind,
      Option.bind_some]
    have hloop : ∃ y', forC ((k : Int) + 1) m (backInner m k r) (y.set k (gl.getD k 0)) = some y' ∧ y'.length = m := by
      obtain ⟨y', h1, h2⟩ := forC_inv (f := backInner m k r) (lo := (k : Int) + 1) (hi := m)
        (s := y.set k (gl.getD k 0)) (P := fun _ a => a.length = m) (by omega) (by simp [hy]) (by
          intro i a hlo hhi ha
          unfold backInner
          obtain ⟨p, rfl⟩ : ∃ p : Nat, i = p := ⟨i.toNat, by omega⟩
          have e1 : (k : Int) * (m : Int) + (p : Int) = ((k * m + p : Nat) : Int) := by push_cast; ring
          rw [e1, rd_at (by rw [hr]; exact sq_lt (by omega) (by omega)), rd_at (by omega), rd_at (by omega)]
          simp only [Option.bind_eq_bind, Option.bind_some]
          rw [wr_ofNat (by omega)]
          exact ⟨_, rfl, by simp [ha]⟩)
      exact ⟨y', h1, h2⟩
    obtain ⟨y', h1, h2⟩ := hloop
    have e1 : (k : Int) * (m : Int) + (k : Int) = ((k * m + k : Nat) : Int) := by push_cast; ring
    rw [h1, Option.bind_some, e1, rd_at (by rw [hr]; exact sq_lt (by omega) (by omega)),
      Option.bind_some]
    split
    · exact ⟨_, rfl, h2, Or.inr rfl⟩
    · rw [rd_at (by omega), Option.bind_some, wr_ofNat (by omega), Option.bind_some]
      exact ih (by omega) _ (by simp [h2])

/-- the update of x -/
theorem xUpd_loop {n m : Nat} {a s x : List R} (ha : a.length = (m + 1) * n) (hs : s.length = m) (hx : n ≤ x.length) :
    ∃ x', forC 0 (n : Int) (xUpdBody num m n a s) x = some x' ∧ x'.length = x.length ∧
      (∀ t, t < n → x'.getD t 0 = x.getD t 0 +
        dotv num (fun i => a.getD (i * n + t) 0) (fun i => s.getD i 0) m) ∧
      ∀ p, n ≤ p → x'[p]? = x[p]? := by
  have key := wrLoop (k := n) (fun t => t) (fun t => x.getD t 0 +
        dotv num (fun i => a.getD (i * n + t) 0) (fun i => s.getD i 0) m) (xUpdBody num m n a s) x
    (fun t ht => by omega) (fun _ _ _ _ e => e) ?_
  · obtain ⟨v', h1, h2, h3, h4⟩ := key
    exact ⟨v', h1, h2, h3, fun p hp => h4 p (by intro i hi; omega)⟩
  intro t ht y hy hf
  unfold xUpdBody
  have hd := gdot_at (num := num) (k := m) (oa := t) (ia := n) (ob := 0) (ib := 1) (a := a) (b := s)
    (fun i hi => by rw [ha]; have := cell_lt (n := n) (m := m) (i := i) (t := t) (by omega) ht; omega)
    (fun i hi => by omega)
  simp only [Nat.cast_zero, Nat.cast_one, Nat.zero_add, Nat.mul_one] at hd
  have e : (fun i => a.getD (t + i * n) 0) = fun i => a.getD (i * n + t) 0 := by
    funext i; rw [Nat.add_comm]
  rw [e] at hd
  rw [hd, rd_at (by omega)]
  simp only [Option.bind_eq_bind, Option.bind_some]
  rw [at_congr (hf t (by intro i' hi'; omega))]

end
end Proofs
end Verif
