/-
Level-1 kernels: loops over elements and over blocks, with the effect on the packed vector and on the
full vector.
-/
import Verif.Model.Level1
import Verif.Proofs.Loop
import Verif.Proofs.Csrmv
import Verif.Core.Prefix

namespace Verif
open Model

variable {R σ ε : Type}

/-- element `k` is at position `P k` -/
def PosOk (ix : Idx) (N ny : Nat) (P : Nat → Nat) : Prop :=
  ∀ k, k < N → ix.pos (k : Int) = some (P k : Int) ∧ P k < ny

/-! ### loops -/

theorem blocked_inv_tail {T n : Nat} (hT : 0 < T) {blk one : Int → σ → Option σ} {s : σ}
    (Q : Nat → σ → Prop) (h0 : Q 0 s)
    (hblk : ∀ (i : Nat) s, i * T + T ≤ n → Q (i * T) s → ∃ s', blk i s = some s' ∧ Q (i * T + T) s')
    (hone : ∀ (k : Nat) s, n / T * T ≤ k → k < n → Q k s → ∃ s', one k s = some s' ∧ Q (k + 1) s') :
    ∃ s', blocked T (n : Int) blk one s = some s' ∧ Q n s' := by
  have hd : (n : Int).tdiv (T : Int) = ((n / T : Nat) : Int) := by
    rw [Int.tdiv_eq_ediv_of_nonneg (by omega)]; rfl
  have hm : (n : Int).tmod (T : Int) = ((n % T : Nat) : Int) := by
    rw [Int.tmod_eq_emod_of_nonneg (by omega)]; rfl
  have hdm : n / T * T + n % T = n := by rw [Nat.mul_comm]; exact Nat.div_add_mod n T
  obtain ⟨s1, e1, q1⟩ := forC_inv_nat (n := n / T) (f := blk) (s := s)
    (P := fun i s => Q (i * T) s) (by simpa using h0) (by
      intro i s hi hs
      have : (i + 1) * T ≤ n := le_trans (Nat.mul_le_mul_right T hi) (by omega)
      rw [Nat.add_mul, Nat.one_mul] at this
      obtain ⟨s', e, q⟩ := hblk i s this hs
      refine ⟨s', e, ?_⟩
      rw [Nat.add_mul, Nat.one_mul]
      exact q)
  obtain ⟨s2, e2, q2⟩ := forC_inv_off (a := (n : Int) - ((n % T : Nat) : Int)) (b := n) (n := n % T)
    (f := one) (s := s1) (P := fun t s => Q (n / T * T + t) s) (by omega) q1 (by
      intro t s ht hs
      obtain ⟨s', e, q⟩ := hone (n / T * T + t) s (by omega) (by omega) hs
      refine ⟨s', ?_, q⟩
      rw [show (n : Int) - ((n % T : Nat) : Int) + (t : Int) = ((n / T * T + t : Nat) : Int) by
        have : (n : Int) = ((n / T * T + n % T : Nat) : Int) := by rw [hdm]
        push_cast at this ⊢; omega]
      exact e)
  refine ⟨s2, ?_, by rw [hdm] at q2; exact q2⟩
  unfold blocked
  rw [hd, hm, e1]
  exact e2

theorem blocked_inv {T n : Nat} (hT : 0 < T) {blk one : Int → σ → Option σ} {s : σ}
    (Q : Nat → σ → Prop) (h0 : Q 0 s)
    (hblk : ∀ (i : Nat) s, i * T + T ≤ n → Q (i * T) s → ∃ s', blk i s = some s' ∧ Q (i * T + T) s')
    (hone : ∀ (k : Nat) s, k < n → Q k s → ∃ s', one k s = some s' ∧ Q (k + 1) s') :
    ∃ s', blocked T (n : Int) blk one s = some s' ∧ Q n s' :=
  blocked_inv_tail hT Q h0 hblk fun k s _ => hone k s

theorem forE_ok {n : Nat} {f : Int → σ → Option (Except ε σ)} {s : σ} (P : Nat → σ → Prop)
    (h0 : P 0 s) (hs : ∀ (i : Nat) s, i < n → P i s → ∃ s', f i s = some (.ok s') ∧ P (i + 1) s') :
    ∃ s', forE 0 (n : Int) f s = some (.ok s') ∧ P n s' := by
  rcases forE_inv (lo := 0) (hi := n) (f := f) (s := s) (fun i s => P i.toNat s) (fun _ => False)
    (by omega) (by simpa using h0) (fun i s h1 h2 p => by
      obtain ⟨s', e, p'⟩ := hs i.toNat s (by omega) p
      refine .inl ⟨s', ?_, ?_⟩
      · rwa [show ((i.toNat : Nat) : Int) = i by omega] at e
      · rwa [show (i + 1).toNat = i.toNat + 1 by omega]) with ⟨s', e, p⟩ | ⟨_, _, h⟩
  · exact ⟨s', e, by simpa using p⟩
  · exact h.elim

/-- the loop stops at iteration `k` -/
theorem forE_stop {n k : Nat} (hk : k < n) {f : Int → σ → Option (Except ε σ)} {s : σ}
    (P : Nat → σ → Prop) (Q : ε → Prop) (h0 : P 0 s)
    (hs : ∀ (i : Nat) s, i < k → P i s → ∃ s', f i s = some (.ok s') ∧ P (i + 1) s')
    (hstop : ∀ s, P k s → ∃ e, f k s = some (.error e) ∧ Q e) :
    ∃ e, forE 0 (n : Int) f s = some (.error e) ∧ Q e := by
  rcases forE_inv (lo := 0) (hi := n) (f := f) (s := s) (fun i s => i ≤ (k : Int) ∧ P i.toNat s) Q
    (by omega) ⟨by omega, by simpa using h0⟩ (fun i s h1 h2 p => by
      by_cases hik : i = (k : Int)
      · subst hik
        obtain ⟨e, h3, h4⟩ := hstop s (by simpa using p.2)
        exact .inr ⟨e, h3, h4⟩
      · have := p.1
        obtain ⟨s', e, p'⟩ := hs i.toNat s (by omega) p.2
        refine .inl ⟨s', ?_, by omega, ?_⟩
        · rwa [show ((i.toNat : Nat) : Int) = i by omega] at e
        · rwa [show (i + 1).toNat = i.toNat + 1 by omega]) with ⟨_, _, h, _⟩ | h
  · omega
  · exact h

theorem forEN_succ' (f : Int → σ → Option (Except ε σ)) : ∀ (n : Nat) (lo : Int) (s : σ),
    forEN f (n + 1) lo s = match forEN f n lo s with
      | none => none
      | some (.error e) => some (.error e)
      | some (.ok s') => f (lo + n) s'
  | 0, lo, s => by
    simp only [forEN, Nat.cast_zero, add_zero]
    cases f lo s with
    | none => rfl
    | some r => cases r <;> rfl
  | n + 1, lo, s => by
    rw [forEN]
    cases hf : f lo s with
    | none => simp [forEN, hf]
    | some r =>
      cases r with
      | error e => simp [forEN, hf]
      | ok s' =>
        dsimp only
        rw [forEN_succ' f n (lo + 1) s']
        simp only [forEN, hf]
        rw [show lo + 1 + (n : Int) = lo + ((n + 1 : Nat) : Int) by push_cast; ring]

theorem forE_succ (f : Int → σ → Option (Except ε σ)) (n : Nat) (s : σ) :
    forE 0 ((n + 1 : Nat) : Int) f s = match forE 0 (n : Int) f s with
      | none => none
      | some (.error e) => some (.error e)
      | some (.ok s') => f n s' := by
  unfold forE
  rw [show (((n + 1 : Nat) : Int) - 0).toNat = n + 1 by omega, show ((n : Int) - 0).toNat = n by omega,
    forEN_succ']
  simp

/-! ### positions -/

section pos
variable {ix : Idx} {N ny T : Nat} {P : Nat → Nat}

theorem lanes_ok (h : PosOk ix N ny P) {i : Nat} (hi : i * T + T ≤ N) :
    ix.lanes T (i : Int) = some ((List.range T).map fun l => (P (i * T + l) : Int)) := by
  unfold Idx.lanes
  apply mapM_range_some
  intro l hl
  have := (h (i * T + l) (by omega)).1
  cases ix with
  | strided s =>
    simp only [Idx.pos, Option.some.injEq] at this
    simp only [Idx.lane, Option.some.injEq]
    rw [← this]
    push_cast
    ring
  | indexed xi =>
    simp only [Idx.pos] at this
    simp only [Idx.lane]
    rw [← this]
    push_cast
    rfl

theorem not_bad (h : PosOk ix N ny P) {k : Nat} (_hk : k < N) : ix.bad (P k : Int) = false := by
  cases ix <;> simp [Idx.bad]

theorem vgather_ok {y : List R} {yf : Nat → R} (hy : Rep y ny yf) (f : Nat → Nat)
    (hf : ∀ l, l < T → f l < ny) :
    vgather y ((List.range T).map fun l => (f l : Int)) = some ((List.range T).map fun l => yf (f l)) := by
  unfold vgather
  rw [show ((List.range T).map fun l => (f l : Int)).mapM (rd y)
      = (List.range T).mapM (fun l => rd y (f l : Int)) by rw [List.mapM_map]; rfl]
  apply mapM_range_some
  intro l hl
  exact hy.rd_nat (hf l hl)

/-! ### effects -/

/-- the full vector after elements `0 … k-1`: position `P j` holds `G j`, the last write wins; other
positions are as in `yf` -/
def YDone (G : Nat → R) (P : Nat → Nat) (yf : Nat → R) (ny k : Nat) (y : List R) : Prop :=
  ∃ yf', Rep y ny yf' ∧ (∀ j, j < k → (∀ j', j < j' → j' < k → P j' ≠ P j) → yf' (P j) = G j) ∧
    ∀ q, (∀ j, j < k → P j ≠ q) → yf' q = yf q

/-- the packed vector after elements `0 … k-1` -/
def XDone (F : Nat → R) (xf : Nat → R) (nx k : Nat) (x : List R) : Prop :=
  Rep x nx (fun q => if q < k then F q else xf q)

variable {F G : Nat → R} {xf yf : Nat → R} {nx k : Nat} {x y : List R}

theorem YDone.zero (h : Rep y ny yf) : YDone G P yf ny 0 y :=
  ⟨yf, h, fun _ hj => absurd hj (by omega), fun _ _ => rfl⟩

theorem XDone.zero (h : Rep x nx xf) : XDone F xf nx 0 x := h.congr fun q _ => by simp

theorem XDone.read (h : XDone F xf nx k x) {q : Nat} (hk : k ≤ q) (hq : q < nx) :
    rd x (q : Int) = some (xf q) := by
  rw [Rep.rd_nat h hq, if_neg (by omega)]

theorem XDone.write (h : XDone F xf nx k x) (hk : k < nx) :
    ∃ x', wr x (k : Int) (F k) = some x' ∧ XDone F xf nx (k + 1) x' := by
  obtain ⟨x', e, r⟩ := Rep.wr_nat h (F k) hk
  refine ⟨x', e, r.congr ?_⟩
  intro q _
  by_cases hq : q = k
  · subst hq; rw [Function.update_self, if_pos (by omega)]
  · rw [Function.update_of_ne hq]
    by_cases h2 : q < k
    · rw [if_pos h2, if_pos (by omega)]
    · rw [if_neg h2, if_neg (by omega)]

theorem XDone.keep (h : XDone F xf nx k x) (hF : F k = xf k) : XDone F xf nx (k + 1) x := by
  refine Rep.congr h ?_
  intro q _
  by_cases h2 : q < k
  · rw [if_pos h2, if_pos (by omega)]
  · rw [if_neg h2]
    by_cases h3 : q < k + 1
    · rw [if_pos h3, show q = k by omega, hF]
    · rw [if_neg h3]

theorem XDone.block (h : XDone F xf nx k x) (hk : k + T ≤ nx) :
    ∃ x', vstore x (k : Int) ((List.range T).map fun l => F (k + l)) = some x' ∧ XDone F xf nx (k + T) x' := by
  obtain ⟨x', e, r⟩ := vstore_rep h (p := (k : Int)) (K := T) (fun l => F (k + l)) (by omega) (by omega)
  refine ⟨x', e, r.congr ?_⟩
  intro q _
  by_cases h1 : (k : Int) ≤ q ∧ (q : Int) < k + T
  · rw [if_pos h1, if_pos (by omega)]
    congr 1
    omega
  · rw [if_neg h1]
    by_cases h2 : q < k
    · rw [if_pos h2, if_pos (by omega)]
    · rw [if_neg h2, if_neg (by omega)]

theorem XDone.load (h : XDone F xf nx k x) (hk : k + T ≤ nx) :
    vload x (k : Int) T = some ((List.range T).map fun l => xf (k + l)) := by
  rw [vload_rep h (by omega) (by omega)]
  congr 1
  apply List.map_congr_left
  intro l _
  rw [if_neg (by omega)]
  simp

theorem YDone.read (h : YDone G P yf ny k y) {q : Nat} (hq : q < ny) (hno : ∀ j, j < k → P j ≠ q) :
    rd y (q : Int) = some (yf q) := by
  obtain ⟨yf', r, _, h2⟩ := h
  rw [r.rd_nat hq, h2 q hno]

theorem YDone.write (h : YDone G P yf ny k y) (hk : P k < ny) :
    ∃ y', wr y (P k : Int) (G k) = some y' ∧ YDone G P yf ny (k + 1) y' := by
  obtain ⟨yf', r, h1, h2⟩ := h
  obtain ⟨y', e, r'⟩ := r.wr_nat (G k) hk
  refine ⟨y', e, _, r', ?_, ?_⟩
  · intro j hj hlast
    by_cases hjk : j = k
    · subst hjk; rw [Function.update_self]
    · rw [Function.update_of_ne (fun hp => hlast k (by omega) (by omega) hp.symm)]
      exact h1 j (by omega) (fun j' a b => hlast j' a (by omega))
  · intro q hq
    rw [Function.update_of_ne (fun hp => hq k (by omega) hp.symm)]
    exact h2 q (fun j hj => hq j (by omega))

theorem YDone.keep (h : YDone G P yf ny k y) (hk : P k < ny) (hG : ∀ j, G j = yf (P j)) :
    YDone G P yf ny (k + 1) y := by
  obtain ⟨yf', r, h1, h2⟩ := h
  have hall : ∀ q, yf' q = yf q := by
    intro q
    by_cases hq : ∃ j, j < k ∧ P j = q
    · -- the last such j
      have : ∀ m, m ≤ k → (∃ j, j < m ∧ P j = q) →
          ∃ j, j < m ∧ P j = q ∧ ∀ j', j < j' → j' < m → P j' ≠ q := by
        intro m
        induction m with
        | zero => rintro _ ⟨j, hj, _⟩; omega
        | succ m ih =>
          rintro hm ⟨j, hj, he⟩
          by_cases hmq : P m = q
          · exact ⟨m, by omega, hmq, fun j' a b => by omega⟩
          · have hjm : j < m := by
              rcases Nat.lt_succ_iff_lt_or_eq.1 hj with h | h
              · exact h
              · subst h; exact absurd he hmq
            obtain ⟨j1, a, b, c⟩ := ih (by omega) ⟨j, hjm, he⟩
            refine ⟨j1, by omega, b, fun j' x y => ?_⟩
            by_cases hj' : j' = m
            · subst hj'; exact hmq
            · exact c j' x (by omega)
      obtain ⟨j, a, b, c⟩ := this k (le_refl _) hq
      rw [← b, h1 j a (fun j' x y => by rw [b]; exact c j' x y), hG]
    · exact h2 q (fun j hj he => hq ⟨j, hj, he⟩)
  exact ⟨yf', r, fun j _ _ => by rw [hall, hG], fun q _ => hall q⟩

theorem YDone.block (h : YDone G P yf ny k y) (hk : ∀ l, l < T → P (k + l) < ny) :
    ∃ y', vscatter ((List.range T).map fun l => G (k + l)) y
        ((List.range T).map fun l => (P (k + l) : Int)) = some y' ∧ YDone G P yf ny (k + T) y' := by
  unfold vscatter
  rw [List.zip_map', List.foldlM_map]
  induction T with
  | zero => exact ⟨y, rfl, h⟩
  | succ T ih =>
    obtain ⟨y1, e1, d1⟩ := ih (fun l hl => hk l (by omega))
    obtain ⟨y2, e2, d2⟩ := d1.write (hk T (by omega))
    refine ⟨y2, ?_, d2⟩
    rw [List.range_succ, List.foldlM_append, e1]
    simp only [List.foldlM_cons, List.foldlM_nil]
    have : (wr y1 ((P (k + T) : Nat) : Int) (G (k + T))) = some y2 := e2
    rw [Option.bind_eq_bind, Option.bind_some, this]
    rfl

theorem YDone.gather (h : YDone G P yf ny k y) (hk : ∀ l, l < T → P (k + l) < ny)
    (hno : ∀ l, l < T → ∀ j, j < k → P j ≠ P (k + l)) :
    vgather y ((List.range T).map fun l => (P (k + l) : Int))
      = some ((List.range T).map fun l => yf (P (k + l))) := by
  obtain ⟨yf', r, _, h2⟩ := h
  rw [vgather_ok r (fun l => P (k + l)) hk]
  congr 1
  apply List.map_congr_left
  intro l hl
  exact h2 _ (hno l (List.mem_range.1 hl))

theorem cast_mul (i T : Nat) : (i : Int) * (T : Int) = ((i * T : Nat) : Int) := by push_cast; rfl

theorem zipWith_range_map {α β γ : Type} (f : α → β → γ) (g : Nat → α) (h : Nat → β) (n : Nat) :
    List.zipWith f ((List.range n).map g) ((List.range n).map h)
      = (List.range n).map fun l => f (g l) (h l) := by
  rw [List.zipWith_map, List.zipWith_self]

end pos

/-- distinct positions -/
def Inj (P : Nat → Nat) (N : Nat) : Prop := ∀ i j, i < N → j < N → P i = P j → i = j

end Verif
