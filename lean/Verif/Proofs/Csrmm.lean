/-
The general-matrix kernels of the sparse times dense product.
-/
import Verif.Model.Csrmm
import Verif.Proofs.Loop
import Verif.Proofs.Adds
import Verif.Proofs.CsrmvSym
import Verif.Spec.Mm

namespace Verif
open Model Finset

variable {R : Type}

/-! ### updates of cells addressed by (major, minor) -/

open Classical in
/-- `f` with the cells in `S` replaced by `g` of their old content -/
noncomputable def doneF (ld : Nat) (S : Nat → Nat → Prop) (g : Nat → Nat → R → R) (f : Nat → R) :
    Nat → R := fun p => if S (p / ld) (p % ld) then g (p / ld) (p % ld) (f p) else f p

theorem major_minor {ld a b : Nat} (hb : b < ld) : (a * ld + b) / ld = a ∧ (a * ld + b) % ld = b := by
  constructor
  · rw [Nat.add_comm, Nat.add_mul_div_right _ _ (by omega), Nat.div_eq_of_lt hb, Nat.zero_add]
  · rw [Nat.add_comm, Nat.add_mul_mod_self_right, Nat.mod_eq_of_lt hb]

theorem doneF_not {ld a b : Nat} (hb : b < ld) {S : Nat → Nat → Prop} (hS : ¬ S a b)
    (g : Nat → Nat → R → R) (f : Nat → R) : doneF ld S g f (a * ld + b) = f (a * ld + b) := by
  unfold doneF
  rw [(major_minor hb).1, (major_minor hb).2, if_neg hS]

theorem doneF_in {ld a b : Nat} (hb : b < ld) {S : Nat → Nat → Prop} (hS : S a b)
    (g : Nat → Nat → R → R) (f : Nat → R) :
    doneF ld S g f (a * ld + b) = g a b (f (a * ld + b)) := by
  unfold doneF
  rw [(major_minor hb).1, (major_minor hb).2, if_pos hS]

theorem doneF_congr {ld : Nat} {S T : Nat → Nat → Prop} {g : Nat → Nat → R → R} {f : Nat → R}
    (h : ∀ a b, S a b ↔ T a b) (p : Nat) : doneF ld S g f p = doneF ld T g f p := by
  have : S = T := by funext a b; exact propext (h a b)
  rw [this]

theorem doneF_upd {ld a b : Nat} (hb : b < ld) {S : Nat → Nat → Prop} {g : Nat → Nat → R → R}
    {f : Nat → R} (p : Nat) :
    Function.update (doneF ld S g f) (a * ld + b) (g a b (f (a * ld + b))) p
      = doneF ld (fun x y => S x y ∨ (x = a ∧ y = b)) g f p := by
  by_cases hp : p = a * ld + b
  · subst hp
    rw [Function.update_self, doneF_in hb (Or.inr ⟨rfl, rfl⟩)]
  · rw [Function.update_of_ne hp]
    unfold doneF
    have : ¬ (p / ld = a ∧ p % ld = b) := by
      rintro ⟨rfl, rfl⟩
      apply hp
      rw [Nat.mul_comm]
      exact (Nat.div_add_mod p ld).symm
    by_cases hS : S (p / ld) (p % ld)
    · rw [if_pos hS, if_pos (Or.inl hS)]
    · rw [if_neg hS, if_neg (by tauto)]

/-- replacing one cell -/
theorem doneF_step {ld len a b : Nat} (hb : b < ld) (hlen : a * ld + b < len)
    {S : Nat → Nat → Prop} {g : Nat → Nat → R → R} {f : Nat → R} {C : List R}
    (hC : Rep C len (doneF ld S g f)) (hS : ¬ S a b) {p : Int} (hp : p = ((a * ld + b : Nat) : Int)) :
    rd C p = some (f (a * ld + b)) ∧
    ∀ v, v = g a b (f (a * ld + b)) → ∃ C', wr C p v = some C' ∧
      Rep C' len (doneF ld (fun x y => S x y ∨ (x = a ∧ y = b)) g f) := by
  subst hp
  refine ⟨by rw [hC.rd_nat hlen, doneF_not hb hS], ?_⟩
  rintro v rfl
  obtain ⟨C', e, r⟩ := hC.wr_nat (g a b (f (a * ld + b))) hlen
  exact ⟨C', e, r.congr (fun k _ => doneF_upd hb k)⟩

/-! ### dot products -/

/-- the kernel arguments for the arrays of `A` -/
def mmOf (cj : R → R) (alpha beta : R) (A : Csr R) (B : List R) (n ldb ldc : Nat) : MmIn R :=
  ⟨cj, alpha, beta, A.m, n, A.base, A.ptr, A.ind, A.val, B, ldb, ldc⟩

section
variable [Semiring R] [DecidableEq R]

/-- row `i` of the stored matrix times column `j` of B -/
def mmDot (col : Bool) (cj : R → R) (A : Csr R) (B : List R) (ldb i j : Nat) : R :=
  ((A.row i).map fun e => cj e.2 * B.getD (denseOff col ldb e.1.toNat j) 0).sum

theorem mmTerm_elim {cj : R → R} {ind : List Int} {val B : List R} {off p : Int} {r : R}
    (h : mmTerm cj ind val B off p = some r) : ∃ c v b, rd ind p = some c ∧ rd val p = some v ∧
      rd B (off + c) = some b ∧ cj v * b = r := by
  unfold mmTerm at h
  simp only [Option.bind_eq_bind, Option.bind_eq_some_iff] at h
  obtain ⟨c, h1, v, h2, b, h3, h4⟩ := h
  exact ⟨c, v, b, h1, h2, h3, by simpa using h4⟩

theorem mmDotSeq_spec {a : MmIn R} {off lo hi : Int} {nnz : Nat}
    {f : Nat → R} (hhi : hi = lo + nnz)
    (h : ∀ t : Nat, t < nnz → mmTerm a.cj a.ind a.val a.B off (lo - a.base + t) = some (f t))
    (init : R) :
    mmDotSeq a off lo hi init = some (init + ∑ t ∈ range nnz, f t) := by
  unfold mmDotSeq
  obtain ⟨s, h1, k, h2, h3⟩ := forC_inv (lo := lo) (hi := hi)
    (f := fun k r => (mmTerm a.cj a.ind a.val a.B off (k - a.base)).bind fun t => some (t + r))
    (s := init)
    (P := fun j r => ∃ k : Nat, j = lo + k ∧ r = init + ∑ t ∈ range k, f t)
    (by omega) ⟨0, by simp, by simp⟩ (by
      rintro j r h1 h2 ⟨k, rfl, rfl⟩
      refine ⟨init + ∑ t ∈ range (k + 1), f t, ?_, k + 1, by push_cast; ring, rfl⟩
      rw [show lo + (k : Int) - a.base = lo - a.base + k by ring, h k (by omega)]
      simp only [Option.bind_some]
      rw [sum_range_succ, add_comm (f k), add_assoc])
  have : k = nnz := by omega
  subst this
  simpa [h3] using h1

theorem mmLanes_spec {K : Nat} {a : MmIn R} {off p : Int} {f : Nat → R}
    (h : ∀ t : Nat, t < K → mmTerm a.cj a.ind a.val a.B off (p + t) = some (f t)) :
    ∃ L, mmLanes K a off p = some L ∧ L.length = K ∧
      (L.map fun ab => ab.1 * ab.2).sum = ∑ t ∈ range K, f t := by
  classical
  have : ∀ t : Nat, ∃ vx : R × R, t < K → ∃ c v, rd a.ind (p + t) = some c ∧
      rd a.val (p + t) = some v ∧ a.cj v = vx.1 ∧
      rd a.B (off + c) = some vx.2 ∧ vx.1 * vx.2 = f t := by
    intro t
    by_cases ht : t < K
    · obtain ⟨c, v, b, h1, h2, h3, h4⟩ := mmTerm_elim (h t ht)
      exact ⟨(a.cj v, b), fun _ => ⟨c, v, h1, h2, rfl, h3, h4⟩⟩
    · exact ⟨(0, 0), fun h => absurd h ht⟩
  choose g hg using this
  refine ⟨(List.range K).map g, ?_, by simp, ?_⟩
  · unfold mmLanes
    apply mapM_range_some
    intro l hl
    obtain ⟨c, v, h1, h2, h3, h4, _⟩ := hg l hl
    simp [h1, h2, h3, h4]
  · rw [List.map_map, list_sum_range (g := f)]
    · simp
    · intro t ht
      simp only [List.getElem_range, Function.comp]
      obtain ⟨c, v, _, _, _, _, h4⟩ := hg t (by simpa using ht)
      exact h4

theorem mmDotK_spec {V : Vec R} {K : Nat} (hV : V.Ok K) {a : MmIn R} {off lo hi : Int} {nnz : Nat}
    {f : Nat → R} (hhi : hi = lo + nnz)
    (h : ∀ t : Nat, t < nnz → mmTerm a.cj a.ind a.val a.B off (lo - a.base + t) = some (f t)) :
    mmDotK V K a off lo hi = some (∑ t ∈ range nnz, f t) := by
  obtain ⟨hK, Inv, i0, i1, i2⟩ := hV
  have e1 : (hi - lo).tdiv (K : Int) = ((nnz / K : Nat) : Int) := by
    rw [hhi, show lo + (nnz : Int) - lo = nnz by ring, Int.tdiv_eq_ediv_of_nonneg (by omega)]
    rfl
  have hdiv := Nat.div_add_mod nnz K
  have e2 : hi - lo - (K : Int) * ((nnz / K : Nat) : Int) = ((nnz % K : Nat) : Int) := by
    have : (K : Int) * ((nnz / K : Nat) : Int) = ((K * (nnz / K) : Nat) : Int) := by push_cast; rfl
    omega
  obtain ⟨v, h1, _, h3⟩ := forS_inv (lo := lo) (hi := hi - ((nnz % K : Nat) : Int)) (K := K)
    (k := nnz / K) hK (by omega)
    (f := fun j v => (mmLanes K a off (j - a.base)).bind fun L => some (V.fma L v))
    (s := V.zero)
    (P := fun k v => Inv v ∧ V.hsum v = ∑ t ∈ range (K * k), f t) ⟨i0, by simp [i1]⟩ (by
      rintro k v hk ⟨p1, p2⟩
      have hle : K * (k + 1) ≤ K * (nnz / K) := Nat.mul_le_mul_left K hk
      rw [Nat.mul_succ] at hle
      obtain ⟨L, g1, g2, g3⟩ := mmLanes_spec (K := K) (a := a) (off := off)
        (p := lo + (K * k : Nat) - a.base) (f := fun t => f (K * k + t)) (by
          intro t ht
          rw [← h (K * k + t) (by omega)]
          congr 1; push_cast; ring)
      obtain ⟨j1, j2⟩ := i2 L v g2 p1
      refine ⟨V.fma L v, by simp only [g1, Option.bind_some], j1, ?_⟩
      rw [j2, p2, g3, sum_range_block])
  have hsplit : ∑ t ∈ range nnz, f t = ∑ t ∈ range (K * (nnz / K)), f t
      + ∑ t ∈ range (nnz % K), f (K * (nnz / K) + t) := by
    conv_lhs => rw [← hdiv]
    rw [sum_range_add]
  unfold mmDotK
  simp only [e1, e2, Option.bind_eq_bind]
  rw [h1]
  simp only [Option.bind_some]
  rw [mmDotSeq_spec (f := fun t => f (K * (nnz / K) + t)) (nnz := nnz % K) (by omega) (by
    intro t ht
    rw [← h (K * (nnz / K) + t) (by omega)]
    congr 1
    omega)]
  congr 1
  rw [hsplit]
  congr 1
  by_cases hz : nnz / K = 0
  · rw [if_neg (fun h => h (by rw [hz]; rfl)), hz]; simp
  · rw [if_pos (by exact_mod_cast hz), zero_add, h3]

variable {cj : R → R} {alpha beta : R} {A : Csr R} {B : List R} {n ldb ldc : Nat}

/-- the terms of row `i`, column `j` (column-major) -/
theorem mm_row_term (hA : A.WF) {j : Nat}
    (hB : ∀ l, l < A.n → denseOff true ldb l j < B.length) {i : Nat} (hi : i < A.m) {t : Nat}
    (ht : t < (A.row i).length) :
    mmTerm cj A.ind A.val B ((j : Int) * ldb - A.base) (A.p i - A.base + t)
      = some (cj (A.row i)[t].2 * B.getD (denseOff true ldb (A.row i)[t].1.toNat j) 0) := by
  have hrl := Csr.row_length hA hi
  obtain ⟨c, v, e1, e2, e3⟩ := Csr.row_getElem? hA hi (t := t) (by omega)
  have e4 : (A.row i)[t] = (c - A.base, v) := by
    have := List.getElem?_eq_getElem ht
    rw [this] at e3
    simpa using e3
  have hr := Csr.row_range hA (List.getElem_mem ht)
  rw [e4] at hr ⊢
  simp only at hr
  have hlt := hB (c - A.base).toNat (by omega)
  unfold mmTerm
  rw [e1, e2]
  simp only [Option.bind_eq_bind, Option.bind_some]
  have eoff : (j : Int) * ldb - A.base + c = ((denseOff true ldb (c - A.base).toNat j : Nat) : Int) := by
    simp only [denseOff, if_true]
    push_cast
    rw [Int.toNat_of_nonneg hr.1]
    ring
  rw [eoff, (Rep.of_list B 0).rd_nat hlt]
  rfl

/-- a dot-product routine that computes the sum of its terms -/
def DotOk (D : MmIn R → Int → Int → Int → Option R) : Prop :=
  ∀ (a : MmIn R) (off lo hi : Int) (nnz : Nat) (f : Nat → R), hi = lo + nnz →
    (∀ t : Nat, t < nnz → mmTerm a.cj a.ind a.val a.B off (lo - a.base + t) = some (f t)) →
    D a off lo hi = some (∑ t ∈ range nnz, f t)

theorem dotOk_seq : DotOk (R := R) (fun a off lo hi => mmDotSeq a off lo hi 0) := by
  intro a off lo hi nnz f hhi h
  simp only
  rw [mmDotSeq_spec hhi h, zero_add]

theorem dotOk_K {V : Vec R} {K : Nat} (hV : V.Ok K) : DotOk (mmDotK V K) :=
  fun _ _ _ _ _ _ hhi h => mmDotK_spec hV hhi h

theorem dot_row {D : MmIn R → Int → Int → Int → Option R} (hD : DotOk D) (hA : A.WF) {j : Nat}
    (hB : ∀ l, l < A.n → denseOff true ldb l j < B.length) {i : Nat} (hi : i < A.m) :
    D (mmOf cj alpha beta A B n ldb ldc) ((j : Int) * ldb - A.base) (A.p i) (A.p (i + 1))
      = some (mmDot true cj A B ldb i j) := by
  have hrl := Csr.row_length hA hi
  rw [hD (mmOf cj alpha beta A B n ldb ldc) _ _ _ (A.row i).length
    (fun t => if ht : t < (A.row i).length then
      cj (A.row i)[t].2 * B.getD (denseOff true ldb (A.row i)[t].1.toNat j) 0 else 0) (by omega)
    (fun t ht => by
      rw [dif_pos ht]
      exact mm_row_term hA hB hi ht)]
  congr 1
  unfold mmDot
  rw [list_sum_range]
  intro t ht
  rw [dif_pos ht]

/-! ### column-major kernels -/

/-- the new content of the cell of column `j`, row `i` -/
def cellCol (cj : R → R) (alpha beta : R) (A : Csr R) (B : List R) (ldb : Nat) (j i : Nat) (v : R) : R :=
  alpha * mmDot true cj A B ldb i j + beta * v

theorem mmColRef_ok {w : Nat} {tm : MmTeam} (hT : 0 < tm.T) (hov : (n : Int) * tm.T ≤ intMax w)
    (hord : tm.ord.Perm (List.range tm.T)) (hA : A.WF) (hld : A.m ≤ ldc)
    (hB : ∀ l j, l < A.n → j < n → denseOff true ldb l j < B.length) {C : List R}
    (hC : ∀ i j, i < A.m → j < n → denseOff true ldc i j < C.length) :
    ∃ C', mmColRef w tm (mmOf cj alpha beta A B n ldb ldc) C = some C' ∧
      Rep C' C.length (doneF ldc (fun a b => a < n ∧ b < A.m)
        (cellCol cj alpha beta A B ldb) (fun p => C.getD p 0)) := by
  have h := team_inv (w := w) (T := tm.T) (m := n) (order := tm.ord) (loc := ())
    (body := fun j s => do
      let C ← forC 0 (A.m : Int) (mmColCell (mmOf cj alpha beta A B n ldb ldc) j) s.2
      some ((), C)) (s := C) hT hov hord
    (P := fun S s => Rep s C.length (doneF ldc (fun a b => S a ∧ b < A.m)
        (cellCol cj alpha beta A B ldb) (fun p => C.getD p 0)))
    (Q := fun _ _ => True)
    ((Rep.of_list C 0).congr (fun k _ => by unfold doneF; rw [if_neg (by simp)]))
    (fun _ => trivial) (by
      intro S j s _ hj hSj hs _
      obtain ⟨C1, e1, r1⟩ := forC_inv_nat (n := A.m) (s := s)
        (f := mmColCell (mmOf cj alpha beta A B n ldb ldc) (j : Int))
        (P := fun i s => Rep s C.length (doneF ldc (fun a b => (S a ∧ b < A.m) ∨ (a = j ∧ b < i))
          (cellCol cj alpha beta A B ldb) (fun p => C.getD p 0)))
        (hs.congr (fun k _ => doneF_congr (fun a b => by simp) k)) (by
          intro i s hi hs
          have hp1 := hA.rd_ptr (i := i) (by omega)
          have hp2 := hA.rd_ptr (i := i + 1) (by omega)
          rw [show ((i + 1 : Nat) : Int) = (i : Int) + 1 by omega] at hp2
          have hd := dot_row (n := n) (ldc := ldc) (cj := cj) (alpha := alpha) (beta := beta) dotOk_seq hA
            (fun l hl => hB l j hl hj) hi
          have hlt := hC i j hi hj
          have eo : denseOff true ldc i j = j * ldc + i := by
            simp only [denseOff, if_true]; ring
          rw [eo] at hlt
          obtain ⟨g1, g2⟩ := doneF_step (a := j) (b := i) (p := (i : Int) + j * ldc) (by omega) hlt hs
            (by rintro (⟨h, _⟩ | ⟨_, h⟩); exact hSj h; omega) (by push_cast; ring)
          obtain ⟨C', g3, g4⟩ := g2 (beta * C.getD (j * ldc + i) 0
            + alpha * mmDot true cj A B ldb i j) (add_comm _ _)
          refine ⟨C', ?_, g4.congr (fun k _ => doneF_congr (fun a b => ?_) k)⟩
          · unfold mmColCell
            simp only [mmOf] at hd ⊢
            rw [hp1, hp2]
            simp only [Option.bind_eq_bind, Option.bind_some]
            rw [hd]
            simp only [Option.bind_some]
            rw [g1]
            simp only [Option.bind_some]
            exact g3
          · constructor
            · rintro ((h | h) | h)
              · exact Or.inl h
              · exact Or.inr ⟨h.1, by omega⟩
              · exact Or.inr ⟨h.1, by omega⟩
            · rintro (h | h)
              · exact Or.inl (Or.inl h)
              · by_cases hb : b = i
                · exact Or.inr ⟨h.1, hb⟩
                · exact Or.inl (Or.inr ⟨h.1, by omega⟩))
      refine ⟨(), C1, ?_, r1.congr (fun k _ => doneF_congr (fun a b => ?_) k), trivial⟩
      · simp only [Option.bind_eq_bind]
        rw [e1]
        rfl
      · constructor
        · rintro (h | h)
          · exact ⟨Or.inl h.1, h.2⟩
          · exact ⟨Or.inr h.1, h.2⟩
        · rintro ⟨h | h, h2⟩
          · exact Or.inl ⟨h, h2⟩
          · exact Or.inr ⟨h, h2⟩)
  exact h

/-! ### chunks rounded to blocks of four columns -/

/-- any division of `0 .. n-1` into consecutive chunks -/
theorem foldl_chunks {σ : Type} {T n : Nat} {order : List Nat} {thread : Nat → σ → Option σ} {s : σ}
    (b : Nat → Nat) (hmono : ∀ t, b t ≤ b (t + 1)) (hb0 : b 0 = 0) (hbT : b T = n)
    (hord : order.Perm (List.range T)) (P : (Nat → Prop) → σ → Prop) (h0 : P (fun _ => False) s)
    (hstep : ∀ t, t < T → ∀ S s, (∀ r, b t ≤ r ∧ r < b (t + 1) → ¬ S r) → P S s →
      ∃ s', thread t s = some s' ∧ P (fun r => S r ∨ (b t ≤ r ∧ r < b (t + 1))) s') :
    ∃ s', order.foldlM (fun s t => thread t s) s = some s' ∧ P (fun r => r < n) s' := by
  have hmono' : ∀ t t', t ≤ t' → b t ≤ b t' := by
    intro t t' h
    induction t', h using Nat.le_induction with
    | base => exact le_refl _
    | succ k _ ih => exact le_trans ih (hmono k)
  have hdisj : ∀ t t' r, (b t ≤ r ∧ r < b (t + 1)) → (b t' ≤ r ∧ r < b (t' + 1)) → t = t' := by
    intro t t' r h h'
    rcases Nat.lt_trichotomy t t' with hlt | he | hlt
    · have := hmono' (t + 1) t' hlt; omega
    · exact he
    · have := hmono' (t' + 1) t hlt; omega
  have hcov : ∀ k r, r < b k → ∃ t, t < k ∧ b t ≤ r ∧ r < b (t + 1) := by
    intro k
    induction k with
    | zero => intro r h; omega
    | succ k ih =>
      intro r h
      by_cases hk : r < b k
      · obtain ⟨t, h1, h2⟩ := ih r hk
        exact ⟨t, by omega, h2⟩
      · exact ⟨k, by omega, by omega, h⟩
  have key : ∀ (L : List Nat) S s, L.Nodup → (∀ t ∈ L, t < T) →
      (∀ t ∈ L, ∀ r, b t ≤ r ∧ r < b (t + 1) → ¬ S r) → P S s →
      ∃ s', L.foldlM (fun s t => thread t s) s = some s' ∧
        P (fun r => S r ∨ ∃ t ∈ L, b t ≤ r ∧ r < b (t + 1)) s' := by
    intro L
    induction L with
    | nil => intro S s _ _ _ hP; exact ⟨s, rfl, by simpa using hP⟩
    | cons t L ih =>
      intro S s hnd hlt hS hP
      obtain ⟨s1, e1, h1⟩ := hstep t (hlt t (by simp)) S s (hS t (by simp)) hP
      obtain ⟨s2, e2, h2⟩ := ih _ s1 (List.nodup_cons.mp hnd).2
        (fun t' ht' => hlt t' (by simp [ht']))
        (by
          intro t' ht' r hr
          rintro (h | h)
          · exact hS t' (by simp [ht']) r hr h
          · have := hdisj _ _ _ hr h
            subst this
            exact (List.nodup_cons.mp hnd).1 ht') h1
      refine ⟨s2, by rw [List.foldlM_cons, e1]; exact e2, ?_⟩
      refine Eq.mp (congrArg (fun p => P p s2) (funext fun r => propext ?_)) h2
      simp [or_assoc]
  obtain ⟨s', e, hp⟩ := key order (fun _ => False) s (hord.nodup_iff.mpr List.nodup_range)
    (fun t ht => by simpa using hord.mem_iff.mp ht) (fun _ _ _ _ h => h) h0
  refine ⟨s', e, ?_⟩
  refine Eq.mp (congrArg (fun p => P p s') (funext fun r => propext ?_)) hp
  constructor
  · rintro (h | ⟨t, ht, hc⟩)
    · exact h.elim
    · have := hmono' (t + 1) T (by simpa using hord.mem_iff.mp ht)
      omega
  · intro hr
    obtain ⟨t, ht, hc⟩ := hcov T r (by omega)
    exact Or.inr ⟨t, hord.mem_iff.mpr (by simpa using ht), hc⟩

/-- the rounded chunk boundary -/
def bnd4 (n T t : Nat) : Nat := min ((n * t / T + 3) / 4 * 4) n

theorem roundUp4_nat (n x : Nat) : roundUp4 (n : Int) (x : Int) = ((min ((x + 3) / 4 * 4) n : Nat) : Int) := by
  unfold roundUp4
  have e : (x : Int).tmod 4 = ((x % 4 : Nat) : Int) := by
    rw [Int.tmod_eq_emod_of_nonneg (by omega)]; rfl
  rw [e]
  split <;> omega

theorem bnd4_mono (n T t : Nat) : bnd4 n T t ≤ bnd4 n T (t + 1) := by
  have : n * t / T ≤ n * (t + 1) / T := Nat.div_le_div_right (Nat.mul_le_mul_left _ (by omega))
  unfold bnd4
  omega

theorem mmPut_ok {f : Nat → R} {g : Nat → Nat → R → R} {S : Nat → Nat → Prop} {len blk j q i : Nat}
    {C : List R} (hC : Rep C len (doneF ldc S g f)) (hi : i < ldc) {d : R}
    (hS : q < blk → ¬ S (j + q) i) (hlen : q < blk → (j + q) * ldc + i < len)
    (hd : q < blk → ∀ v, d * alpha + beta * v = g (j + q) i v) :
    ∃ C', mmPut (mmOf cj alpha beta A B n ldb ldc) blk j q i d C = some C' ∧
      Rep C' len (doneF ldc (fun x y => S x y ∨ (q < blk ∧ x = j + q ∧ y = i)) g f) := by
  unfold mmPut
  by_cases hq : q < blk
  · rw [if_pos (by omega)]
    obtain ⟨g1, g2⟩ := doneF_step (a := j + q) (b := i) (p := ((j : Int) + q) * ldc + i) hi (hlen hq) hC
      (hS hq) (by push_cast; ring)
    obtain ⟨C', g3, g4⟩ := g2 _ (hd hq _)
    refine ⟨C', ?_, g4.congr (fun k _ => doneF_congr (fun x y => by simp [hq]) k)⟩
    simp only [mmOf]
    rw [g1]
    exact g3
  · rw [if_neg (by omega)]
    exact ⟨C, rfl, hC.congr (fun k _ => doneF_congr (fun x y => by simp [hq]) k)⟩

/-- number of columns of the block at `j` -/
def blk4 (n j : Nat) : Nat := min 4 (n - j)

theorem mmBlkCols_eq {n j : Nat} (hj : j < n) : mmBlkCols n j 4 = ((blk4 n j : Nat) : Int) := by
  unfold mmBlkCols blk4
  split
  · omega
  · split
    · omega
    · split <;> omega

theorem mmBlkCol_eq {n j q : Nat} (hj : j < n) (hq : q < 4) :
    mmBlkCol n j q = (((if q < blk4 n j then j + q else j) : Nat) : Int) := by
  unfold mmBlkCol blk4
  split
  · split <;> omega
  · split
    · split <;> omega
    · split
      · split <;> omega
      · split <;> omega

theorem mmColBlkRow_ok {V : Vec R} {K : Nat} (hV : V.Ok K) (hA : A.WF) (hld : A.m ≤ ldc)
    (hB : ∀ l j, l < A.n → j < n → denseOff true ldb l j < B.length) {len : Nat}
    (hC : ∀ i j, i < A.m → j < n → denseOff true ldc i j < len) {f : Nat → R}
    {S : Nat → Nat → Prop} {i j : Nat} (hi : i < A.m) (hj : j < n) {C : List R}
    (hS : ∀ q, q < blk4 n j → ¬ S (j + q) i)
    (hr : Rep C len (doneF ldc S (cellCol cj alpha beta A B ldb) f)) (hcomm : ∀ x : R, x * alpha = alpha * x) :
    ∃ C', mmColBlkRow V K (mmOf cj alpha beta A B n ldb ldc) (blk4 n j : Nat) j i C = some C' ∧
      Rep C' len (doneF ldc (fun x y => S x y ∨ (j ≤ x ∧ x < j + blk4 n j ∧ y = i))
        (cellCol cj alpha beta A B ldb) f) := by
  have hp1 := hA.rd_ptr (i := i) (by omega)
  have hp2 := hA.rd_ptr (i := i + 1) (by omega)
  rw [show ((i + 1 : Nat) : Int) = (i : Int) + 1 by omega] at hp2
  have hb : blk4 n j ≤ 4 ∧ blk4 n j ≤ n - j := by unfold blk4; omega
  have hd : ∀ q : Nat, q < 4 → mmDotK V K (mmOf cj alpha beta A B n ldb ldc)
      (mmBlkCol n j q * ldb - A.base) (A.p i) (A.p (i + 1))
      = some (mmDot true cj A B ldb i (if q < blk4 n j then j + q else j)) := by
    intro q hq
    rw [mmBlkCol_eq hj hq]
    exact dot_row (dotOk_K hV) hA (fun l hl => hB l _ hl (by split <;> omega)) hi
  have hlen : ∀ q, q < blk4 n j → (j + q) * ldc + i < len := by
    intro q hq
    have := hC i (j + q) hi (by omega)
    simp only [denseOff, if_true] at this
    rw [Nat.mul_comm]; omega
  have hcell : ∀ q, q < blk4 n j → ∀ v, mmDot true cj A B ldb i (if q < blk4 n j then j + q else j)
      * alpha + beta * v = cellCol cj alpha beta A B ldb (j + q) i v := by
    intro q hq v
    rw [if_pos hq, hcomm]; rfl
  obtain ⟨C3, e3, r3⟩ := mmPut_ok (cj := cj) (A := A) (B := B) (n := n) (ldb := ldb) (q := 3) hr (by omega)
    (hS 3) (hlen 3) (hcell 3)
  obtain ⟨C2, e2, r2⟩ := mmPut_ok (cj := cj) (A := A) (B := B) (n := n) (ldb := ldb) (q := 2) r3 (by omega)
    (fun h => by rintro (h' | h'); exact hS 2 h h'; omega) (hlen 2) (hcell 2)
  obtain ⟨C1, e1, r1⟩ := mmPut_ok (cj := cj) (A := A) (B := B) (n := n) (ldb := ldb) (q := 1) r2 (by omega)
    (fun h => by rintro ((h' | h') | h'); exact hS 1 h h'; omega; omega) (hlen 1) (hcell 1)
  obtain ⟨C0, e0, r0⟩ := mmPut_ok (cj := cj) (A := A) (B := B) (n := n) (ldb := ldb) (q := 0) r1 (by omega)
    (fun h => by rintro (((h' | h') | h') | h'); exact hS 0 h h'; omega; omega; omega) (hlen 0) (hcell 0)
  refine ⟨C0, ?_, r0.congr (fun k _ => doneF_congr (fun x y => ?_) k)⟩
  · unfold mmColBlkRow
    have h0 := hd 0 (by omega)
    have h1 := hd 1 (by omega)
    have h2 := hd 2 (by omega)
    have h3 := hd 3 (by omega)
    simp only [Nat.cast_zero, Nat.cast_one, Nat.cast_ofNat] at h0 h1 h2 h3 e0 e1 e2 e3
    simp only [show (mmOf cj alpha beta A B n ldb ldc).ptr = A.ptr from rfl,
      show (mmOf cj alpha beta A B n ldb ldc).base = A.base from rfl,
      show (mmOf cj alpha beta A B n ldb ldc).n = (n : Int) from rfl,
      show (mmOf cj alpha beta A B n ldb ldc).ldb = (ldb : Int) from rfl]
    rw [hp1, hp2]
    simp only [Option.bind_eq_bind, Option.bind_some, h0, h1, h2, h3]
    rw [e3]
    simp only [Option.bind_some]
    rw [e2]
    simp only [Option.bind_some]
    rw [e1]
    simp only [Option.bind_some]
    exact e0
  · constructor
    · rintro ((((h | h) | h) | h) | h)
      · exact Or.inl h
      all_goals exact Or.inr ⟨by omega, by omega, h.2.2⟩
    · rintro (h | h)
      · exact Or.inl (Or.inl (Or.inl (Or.inl h)))
      · have : x = j ∨ x = j + 1 ∨ x = j + 2 ∨ x = j + 3 := by omega
        rcases this with rfl | rfl | rfl | rfl
        · exact Or.inr ⟨by omega, by omega, h.2.2⟩
        · exact Or.inl (Or.inr ⟨by omega, by omega, h.2.2⟩)
        · exact Or.inl (Or.inl (Or.inr ⟨by omega, by omega, h.2.2⟩))
        · exact Or.inl (Or.inl (Or.inl (Or.inr ⟨by omega, by omega, h.2.2⟩)))

theorem mmColBlk_ok {V : Vec R} {K : Nat} (hV : V.Ok K) (hA : A.WF) (hld : A.m ≤ ldc)
    (hB : ∀ l j, l < A.n → j < n → denseOff true ldb l j < B.length) {len : Nat}
    (hC : ∀ i j, i < A.m → j < n → denseOff true ldc i j < len) {f : Nat → R}
    {S : Nat → Prop} {j : Nat} (hj : j < n) {C : List R}
    (hS : ∀ q, q < blk4 n j → ¬ S (j + q))
    (hr : Rep C len (doneF ldc (fun a b => S a ∧ b < A.m) (cellCol cj alpha beta A B ldb) f))
    (hcomm : ∀ x : R, x * alpha = alpha * x) :
    ∃ C', mmColBlk V K (mmOf cj alpha beta A B n ldb ldc) j (4, C) = some (((blk4 n j : Nat) : Int), C') ∧
      Rep C' len (doneF ldc (fun a b => (S a ∨ (j ≤ a ∧ a < j + blk4 n j)) ∧ b < A.m)
        (cellCol cj alpha beta A B ldb) f) := by
  obtain ⟨C1, e1, r1⟩ := forC_inv_nat (n := A.m) (s := C)
    (f := mmColBlkRow V K (mmOf cj alpha beta A B n ldb ldc) (blk4 n j : Nat) j)
    (P := fun i s => Rep s len (doneF ldc
      (fun a b => (S a ∧ b < A.m) ∨ ((j ≤ a ∧ a < j + blk4 n j) ∧ b < i))
      (cellCol cj alpha beta A B ldb) f))
    (hr.congr (fun k _ => doneF_congr (fun a b => by simp) k)) (by
      intro i s hi hs
      obtain ⟨C', e, r⟩ := mmColBlkRow_ok hV hA hld hB hC hi hj (C := s) (by
        intro q hq
        rintro (h | h)
        · exact hS q hq h.1
        · omega) hs hcomm
      refine ⟨C', e, r.congr (fun k _ => doneF_congr (fun a b => ?_) k)⟩
      constructor
      · rintro ((h | h) | h)
        · exact Or.inl h
        · exact Or.inr ⟨h.1, by omega⟩
        · exact Or.inr ⟨⟨h.1, h.2.1⟩, by omega⟩
      · rintro (h | h)
        · exact Or.inl (Or.inl h)
        · by_cases hb : b = i
          · exact Or.inr ⟨h.1.1, h.1.2, hb⟩
          · exact Or.inl (Or.inr ⟨h.1, by omega⟩))
  refine ⟨C1, ?_, r1.congr (fun k _ => doneF_congr (fun a b => ?_) k)⟩
  · unfold mmColBlk
    simp only [show (mmOf cj alpha beta A B n ldb ldc).n = (n : Int) from rfl,
      show (mmOf cj alpha beta A B n ldb ldc).m = (A.m : Int) from rfl]
    rw [mmBlkCols_eq hj, e1]
    rfl
  · tauto

theorem mmColKt_ok {w : Nat} {tm : MmTeam} {V : Vec R} {K : Nat} (hV : V.Ok K) (hT : 0 < tm.T)
    (hov : (n : Int) * tm.T ≤ intMax w)
    (hord : tm.ord.Perm (List.range tm.T)) (hA : A.WF) (hld : A.m ≤ ldc)
    (hB : ∀ l j, l < A.n → j < n → denseOff true ldb l j < B.length) {C : List R}
    (hC : ∀ i j, i < A.m → j < n → denseOff true ldc i j < C.length)
    (hcomm : ∀ x : R, x * alpha = alpha * x) :
    ∃ C', mmColKt w tm V K (mmOf cj alpha beta A B n ldb ldc) C = some C' ∧
      Rep C' C.length (doneF ldc (fun a b => a < n ∧ b < A.m)
        (cellCol cj alpha beta A B ldb) (fun p => C.getD p 0)) := by
  unfold mmColKt
  refine foldl_chunks (n := n) (bnd4 n tm.T) (bnd4_mono n tm.T) (by simp [bnd4])
    (by unfold bnd4; rw [Nat.mul_div_cancel _ hT]; omega) hord
    (P := fun S s => Rep s C.length (doneF ldc (fun a b => S a ∧ b < A.m)
        (cellCol cj alpha beta A B ldb) (fun p => C.getD p 0)))
    ((Rep.of_list C 0).congr (fun k _ => by unfold doneF; rw [if_neg (by simp)])) ?_
  intro t ht S s hS hs
  have h1 : (n : Int) * (t : Int) ≤ (n : Int) * tm.T := Int.mul_le_mul_of_nonneg_left (by omega) (by omega)
  have h2 : (n : Int) * ((t : Int) + 1) ≤ (n : Int) * tm.T :=
    Int.mul_le_mul_of_nonneg_left (by omega) (by omega)
  have e1 : ((n : Int) * (t : Int)).tdiv tm.T = ((n * t / tm.T : Nat) : Int) := by
    rw [Int.tdiv_eq_ediv_of_nonneg (Int.mul_nonneg (by omega) (by omega))]; simp
  have e2 : ((n : Int) * ((t : Int) + 1)).tdiv tm.T = ((n * (t + 1) / tm.T : Nat) : Int) := by
    rw [Int.tdiv_eq_ediv_of_nonneg (Int.mul_nonneg (by omega) (by omega))]; simp
  simp only [show (mmOf cj alpha beta A B n ldb ldc).n = (n : Int) from rfl]
  rw [chk_of_le (Int.mul_nonneg (by omega) (by omega)) (by omega),
      chk_of_le (Int.mul_nonneg (by omega) (by omega)) (by omega)]
  simp only [Option.bind_eq_bind, Option.bind_some, e1, e2, roundUp4_nat]
  change ∃ s', ((forS ((bnd4 n tm.T t : Nat) : Int) ((bnd4 n tm.T (t + 1) : Nat) : Int) 4 _ _).bind _)
    = some s' ∧ _
  have hm := bnd4_mono n tm.T t
  have hl4 : bnd4 n tm.T t = n ∨ bnd4 n tm.T t % 4 = 0 := by unfold bnd4; omega
  have hh4 : bnd4 n tm.T (t + 1) = n ∨ bnd4 n tm.T (t + 1) % 4 = 0 := by unfold bnd4; omega
  have hhn : bnd4 n tm.T (t + 1) ≤ n := by unfold bnd4; omega
  generalize bnd4 n tm.T t = lo at *
  generalize bnd4 n tm.T (t + 1) = hi at *
  have en : ((hi : Int) - lo + 4 - 1) / 4 = (((hi - lo + 3) / 4 : Nat) : Int) := by omega
  unfold forS
  rw [en]
  obtain ⟨r, e3, r3⟩ := forC_inv_nat (n := (hi - lo + 3) / 4) (s := ((4 : Int), s))
    (f := fun k s => mmColBlk V K (mmOf cj alpha beta A B n ldb ldc) ((lo : Int) + 4 * k) s)
    (P := fun k s => (k < (hi - lo + 3) / 4 → s.1 = 4) ∧
      Rep s.2 C.length (doneF ldc (fun a b => (S a ∨ (lo ≤ a ∧ a < min (lo + 4 * k) hi)) ∧ b < A.m)
        (cellCol cj alpha beta A B ldb) (fun p => C.getD p 0)))
    ⟨fun _ => rfl, hs.congr (fun k _ => doneF_congr (fun a b => by
      constructor
      · rintro ⟨h, h'⟩; exact ⟨Or.inl h, h'⟩
      · rintro ⟨h | h, h'⟩
        · exact ⟨h, h'⟩
        · omega) k)⟩ (by
      rintro k ⟨b, s⟩ hk ⟨hb, hs⟩
      have := hb hk
      simp only at this hs
      subst this
      obtain ⟨C', g1, g2⟩ := mmColBlk_ok hV hA hld hB hC (j := lo + 4 * k) (by omega) (by
        intro q hq
        unfold blk4 at hq
        rintro (h | h)
        · exact hS _ ⟨by omega, by omega⟩ h
        · omega) hs hcomm
      refine ⟨_, by rw [← g1]; push_cast; rfl, ?_, g2.congr (fun k' _ => doneF_congr (fun a b => ?_) k')⟩
      · intro h
        simp only [blk4]
        omega
      · have : blk4 n (lo + 4 * k) = min 4 (n - (lo + 4 * k)) := rfl
        rw [this]
        constructor
        · rintro ⟨(h | h) | h, h'⟩
          · exact ⟨Or.inl h, h'⟩
          · exact ⟨Or.inr (by omega), h'⟩
          · exact ⟨Or.inr (by omega), h'⟩
        · rintro ⟨h | h, h'⟩
          · exact ⟨Or.inl (Or.inl h), h'⟩
          · by_cases hx : a < min (lo + 4 * k) hi
            · exact ⟨Or.inl (Or.inr ⟨h.1, hx⟩), h'⟩
            · exact ⟨Or.inr (by omega), h'⟩)
  refine ⟨r.2, by rw [e3]; rfl, r3.2.congr (fun k' _ => doneF_congr (fun a b => ?_) k')⟩
  constructor
  · rintro ⟨h | h, h'⟩
    · exact ⟨Or.inl h, h'⟩
    · exact ⟨Or.inr (by omega), h'⟩
  · rintro ⟨h | h, h'⟩
    · exact ⟨Or.inl h, h'⟩
    · exact ⟨Or.inr (by omega), h'⟩

end
end Verif
