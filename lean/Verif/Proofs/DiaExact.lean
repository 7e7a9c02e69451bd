/-
The DIA matrix-vector product in an arithmetic without algebraic laws.
-/
import Verif.Spec.DiaExact
import Verif.Proofs.DiaMv
import Verif.Proofs.BsrExact
import Verif.Proofs.MmRound

namespace Verif
open Model

variable {R : Type}

/-- `body` runs without undefined behaviour on every array of `len` cells; the old and the new value of cell
`k` are related by `Q k` -/
def Moves (len : Nat) (body : List R → Option (List R)) (Q : Nat → R → R → Prop) : Prop :=
  ∀ y f, Rep y len f → ∃ y' f', body y = some y' ∧ Rep y' len f' ∧ ∀ k, k < len → Q k (f k) (f' k)

theorem Moves.of_fun {len : Nat} {body : List R → Option (List R)} {Q : Nat → R → R → Prop} {g : Nat → R → R}
    (h : ∀ y f, Rep y len f → ∃ y', body y = some y' ∧ Rep y' len (fun k => g k (f k)))
    (hQ : ∀ k v, k < len → Q k v (g k v)) : Moves len body Q := by
  intro y f hy
  obtain ⟨y', e, r⟩ := h y f hy
  exact ⟨y', _, e, r, fun k hk => hQ k _ hk⟩

theorem Moves.imp {len : Nat} {body : List R → Option (List R)} {Q Q' : Nat → R → R → Prop}
    (h : Moves len body Q) (hQ : ∀ k v w, k < len → Q k v w → Q' k v w) : Moves len body Q' := by
  intro y f hy
  obtain ⟨y', f', e, r, q⟩ := h y f hy
  exact ⟨y', f', e, r, fun k hk => hQ k _ _ hk (q k hk)⟩

/-- `G` inside a window, unchanged outside -/
def winQ (a b : Int) (G : Nat → R → R → Prop) (k : Nat) (v w : R) : Prop :=
  (a ≤ (k : Int) ∧ (k : Int) < b → G k v w) ∧ (¬(a ≤ (k : Int) ∧ (k : Int) < b) → w = v)

theorem moves_forC_win {len : Nat} {a lo hi : Int} {one : Int → List R → Option (List R)}
    {G : Nat → R → R → Prop} {base : Int} (hlo : base ≤ lo)
    (hone : ∀ j, lo ≤ j → j < hi → Moves len (one j) (winQ (a + j) (a + j + 1) G)) {y s : List R} {f : Nat → R}
    (hs : ∃ f', Rep s len f' ∧ ∀ k, k < len → winQ (a + base) (a + lo) G k (f k) (f' k)) (hl : lo ≤ hi) :
    ∃ y' f', forC lo hi one s = some y' ∧ Rep y' len f' ∧ ∀ k, k < len → winQ (a + base) (a + hi) G k (f k) (f' k) := by
  obtain ⟨y', e, f', r, q⟩ := forC_inv (lo := lo) (hi := hi) (f := one) (s := s)
    (P := fun j s => ∃ f', Rep s len f' ∧ ∀ k, k < len → winQ (a + base) (a + j) G k (f k) (f' k)) hl hs (by
      rintro j s h1 h2 ⟨f', r, q⟩
      obtain ⟨y', f2, e, r2, q2⟩ := hone j h1 h2 s f' r
      refine ⟨y', e, f2, r2, fun k hk => ?_⟩
      have q := q k hk
      have q2 := q2 k hk
      by_cases hc : a + j ≤ (k : Int) ∧ (k : Int) < a + j + 1
      · have := q.2 (by omega)
        refine ⟨fun _ => ?_, fun h => by omega⟩
        rw [← this]
        exact q2.1 hc
      · have := q2.2 hc
        rw [this]
        exact ⟨fun h => q.1 (by omega), fun h => q.2 (by omega)⟩)
  exact ⟨y', f', e, r, q⟩

/-- blocks of `K` cells followed by single cells, over `[lo, hi)`: every cell of the window is
updated once -/
theorem moves_blocks {len K : Nat} {a lo hi e : Int} (he : e ≤ hi) {blk one : Int → List R → Option (List R)}
    {G : Nat → R → R → Prop}
    (hblk : ∀ j, lo ≤ j → j + K ≤ e → Moves len (blk j) (winQ (a + j) (a + j + K) G))
    (hone : ∀ j, lo ≤ j → j < hi → Moves len (one j) (winQ (a + j) (a + j + 1) G)) :
    Moves len (fun y => (whileFrom K lo e blk y).bind fun s => forC s.1 hi one s.2) (winQ (a + lo) (a + hi) G) := by
  intro y f hy
  obtain ⟨i, s, e1, hs, hi1, hi2, hi3⟩ := whileFrom_inv (K := K) (lo := lo) (e := e) (f := blk) (s := y)
    (P := fun j s => ∃ f', Rep s len f' ∧ ∀ k, k < len → winQ (a + lo) (a + j) G k (f k) (f' k))
    ⟨f, hy, fun k _ => ⟨fun h => by omega, fun _ => rfl⟩⟩ (by
      rintro j s h1 h2 ⟨f', r, q⟩
      obtain ⟨y', f2, e, r2, q2⟩ := hblk j h1 h2 s f' r
      refine ⟨y', e, f2, r2, fun k hk => ?_⟩
      have q := q k hk
      have q2 := q2 k hk
      by_cases hc : a + j ≤ (k : Int) ∧ (k : Int) < a + j + K
      · have := q.2 (by omega)
        refine ⟨fun _ => ?_, fun h => by omega⟩
        rw [← this]
        exact q2.1 hc
      · have := q2.2 hc
        rw [this]
        exact ⟨fun h => q.1 (by omega), fun h => q.2 (by omega)⟩)
  beta_reduce
  rw [e1, Option.bind_some]
  by_cases hlt : i ≤ hi
  · exact moves_forC_win (base := lo) hi1 (fun j h1 h2 => hone j (by omega) h2) hs hlt (y := y)
  · have : i = lo := by
      by_cases h : lo ≤ e
      · have := hi2 h; omega
      · exact hi3 (by omega)
    obtain ⟨f', r, q⟩ := hs
    refine ⟨s, f', by rw [forC_ge (by omega)], r, fun k hk => ?_⟩
    have := (q k hk).2 (by omega)
    exact ⟨fun h => by omega, fun _ => this⟩

section
variable [Zero R] [One R] [Add R] [Mul R] [DecidableEq R]

/-- one product, times alpha, added to `r` -/
def DiaAcc (alpha : R) (ab : R × R) (r z : R) : Prop :=
  ∃ p, (p = alpha * ab.1 * ab.2 ∨ p = ab.1 * alpha * ab.2) ∧ (z = r + p ∨ z = p + r)

/-- the products of a list, times alpha, added to `r` one after another -/
def DiaChain (alpha : R) : R → List (R × R) → R → Prop
  | r, [], z => z = r
  | r, ab :: L, z => ∃ r', DiaAcc alpha ab r r' ∧ DiaChain alpha r' L z

omit [Zero R] [One R] [DecidableEq R] in
theorem DiaChain.snoc {alpha : R} {ab : R × R} {z z' : R} : ∀ {L : List (R × R)} {r : R}, DiaChain alpha r L z →
    DiaAcc alpha ab z z' → DiaChain alpha r (L ++ [ab]) z'
  | [], r, h, h' => by
    cases h
    exact ⟨z', h', rfl⟩
  | _ :: L, r, ⟨r', h1, h2⟩, h' => ⟨r', h1, DiaChain.snoc h2 h'⟩

/-- scaling with the factor on the right -/
def scR (beta v : R) : R := if beta = 0 then 0 else if beta ≠ 1 then v * beta else v

variable {m n nd : Nat} {off : List Int} {dval x : List R} {alpha beta : R}

theorem diaScale_val {K : Nat} {y : List R} (hm : m ≤ y.length) :
    ∃ y', diaScale K (m : Int) beta y = some y' ∧
      Rep y' y.length (fun k => if k < m then scR beta (y.getD k 0) else y.getD k 0) := by
  have hy := Rep.of_list y (0 : R)
  unfold diaScale
  by_cases h0 : beta = 0
  · rw [if_pos h0]
    obtain ⟨y', e, hr⟩ := blocks_spec (len := y.length) (K := K) (a := 0) (lo := 0) (hi := m)
      (e := m) (by omega) (by omega) (le_refl _)
      (blk := fun i y => vstore y i (List.replicate K 0)) (one := fun i y => wr y i 0)
      (fun _ _ => (0 : R)) (by
        intro j y f h1 h2 hy
        rw [replicate_map]
        obtain ⟨b, hb, hr⟩ := vstore_rep hy (p := j) (K := K) (fun _ => (0 : R)) h1 (by omega)
        exact ⟨b, hb, by simpa using hr⟩) (by
        intro j y f h1 h2 hy
        obtain ⟨b, hb, hr⟩ := hy.wr (i := j) 0 h1 (by omega)
        refine ⟨b, hb, hr.congr (fun k _ => ?_)⟩
        by_cases hk : k = j.toNat
        · rw [hk, Function.update_self, if_pos (by omega)]
        · rw [Function.update_of_ne hk, if_neg (by omega)]) hy
    refine ⟨y', e, hr.congr (fun k _ => ?_)⟩
    by_cases hk : k < m
    · rw [if_pos hk, if_pos (by omega), scR, if_pos h0]
    · rw [if_neg hk, if_neg (by omega)]
  · rw [if_neg h0]
    by_cases h1 : beta = 1
    · rw [if_neg (by simp [h1])]
      refine ⟨y, rfl, hy.congr (fun k _ => ?_)⟩
      have : scR beta (y.getD k 0) = y.getD k 0 := by rw [scR, if_neg h0, if_neg (by simpa using h1)]
      rw [this]
      split <;> rfl
    · rw [if_pos h1]
      obtain ⟨y', e, hr⟩ := blocks_spec (len := y.length) (K := K) (a := 0) (lo := 0) (hi := m)
        (e := m) (by omega) (by omega) (le_refl _)
        (blk := fun i y => do
          let yv ← vload y i K
          vstore y i (yv.map fun v => v * beta))
        (one := fun i y => do
          let v ← rd y i
          wr y i (v * beta))
        (fun _ v => v * beta) (by
          intro j y f h1 h2 hy
          rw [vload_rep hy h1 (by omega)]
          simp only [Option.bind_eq_bind, Option.bind_some, List.map_map]
          obtain ⟨b, hb, hr⟩ := vstore_rep hy (p := j) (K := K)
            ((fun v => v * beta) ∘ fun l => f (j.toNat + l)) h1 (by omega)
          refine ⟨b, hb, hr.congr (fun k _ => ?_)⟩
          simp only [zero_add, Function.comp]
          by_cases hk : j ≤ (k : Int) ∧ (k : Int) < j + K
          · rw [if_pos hk, if_pos hk, show j.toNat + (k - j.toNat) = k by omega]
          · rw [if_neg hk, if_neg hk]) (by
          intro j y f h1 h2 hy
          rw [hy.rd h1 (by omega)]
          simp only [Option.bind_eq_bind, Option.bind_some]
          obtain ⟨b, hb, hr⟩ := hy.wr (i := j) (f j.toNat * beta) h1 (by omega)
          refine ⟨b, hb, hr.congr (fun k _ => ?_)⟩
          by_cases hk : k = j.toNat
          · rw [hk, Function.update_self, if_pos (by omega)]
          · rw [Function.update_of_ne hk, if_neg (by omega)]) hy
      refine ⟨y', e, hr.congr (fun k _ => ?_)⟩
      by_cases hk : k < m
      · rw [if_pos hk, if_pos (by omega), scR, if_neg h0, if_pos h1]
      · rw [if_neg hk, if_neg (by omega)]

/-- what diagonal `d` does to row `k` -/
def diaStepQ (alpha : R) (m n : Nat) (off : List Int) (dval x : List R) (d k : Nat) (v w : R) : Prop :=
  if k < m then match diaPair m n off dval x k d with
    | none => w = v
    | some ab => DiaAcc alpha ab v w
  else w = v

omit [One R] [DecidableEq R] in
/-- from the window of the diagonal to all rows -/
theorem diaStepQ_of_win {d : Nat} (k : Nat) (v w : R)
    (h : winQ (max 0 (-off.getD d 0)) (max 0 (-off.getD d 0) +
      min ((m : Int) - max 0 (-off.getD d 0)) ((n : Int) - max 0 (off.getD d 0)))
      (fun k v w => ∃ ab, diaPair m n off dval x k d = some ab ∧ DiaAcc alpha ab v w) k v w) :
    diaStepQ alpha m n off dval x d k v w := by
  unfold diaStepQ
  by_cases hk : k < m
  · rw [if_pos hk]
    by_cases hc : 0 ≤ (k : Int) + off.getD d 0 ∧ (k : Int) + off.getD d 0 < n
    · obtain ⟨ab, e, ha⟩ := h.1 (by omega)
      rw [e]
      exact ha
    · have := h.2 (by omega)
      rw [show diaPair m n off dval x k d = none by unfold diaPair; rw [if_neg hc]]
      exact this
  · rw [if_neg hk]
    exact h.2 (by omega)

omit [One R] [DecidableEq R] in
theorem addAt_moves {len : Nat} {i : Int} (h0 : 0 ≤ i) (h1 : i < len) {ab : R × R} {d : Nat}
    (hp : diaPair m n off dval x i.toNat d = some ab) :
    Moves len (fun y => addAt y i (alpha * ab.1 * ab.2)) (winQ i (i + 1)
      (fun k v w => ∃ ab, diaPair m n off dval x k d = some ab ∧ DiaAcc alpha ab v w)) := by
  intro y f hy
  simp only [addAt, hy.rd h0 h1, Option.bind_eq_bind, Option.bind_some]
  obtain ⟨b, hb, hr⟩ := hy.wr (f i.toNat + alpha * ab.1 * ab.2) h0 h1
  refine ⟨b, _, hb, hr, fun k _ => ?_⟩
  by_cases hk : k = i.toNat
  · subst hk
    rw [Function.update_self]
    exact ⟨fun _ => ⟨ab, hp, _, .inl rfl, .inl rfl⟩, fun h => by omega⟩
  · rw [Function.update_of_ne hk]
    exact ⟨fun h => by omega, fun _ => rfl⟩

omit [One R] [DecidableEq R] in
theorem diaOne_moves {len : Nat} (hm : m ≤ len) (hx : n ≤ x.length)
    (hdv : m * nd ≤ dval.length) {d : Nat} (hd : d < nd) {j p q : Int} (h0 : 0 ≤ j)
    (h1 : j < min ((m : Int) - max 0 (-off.getD d 0)) ((n : Int) - max 0 (off.getD d 0)))
    (hp : p = max 0 (-off.getD d 0) + (d : Int) * m + j) (hq : q = max 0 (off.getD d 0) + j) :
    Moves len (fun y => do
      let v ← rd dval p
      let xv ← rd x q
      addAt y (max 0 (-off.getD d 0) + j) (alpha * v * xv))
      (winQ (max 0 (-off.getD d 0) + j) (max 0 (-off.getD d 0) + j + 1)
      (fun k v w => ∃ ab, diaPair m n off dval x k d = some ab ∧ DiaAcc alpha ab v w)) := by
  obtain ⟨i, hi⟩ : ∃ i : Nat, (i : Int) = max 0 (-off.getD d 0) + j :=
    ⟨(max 0 (-off.getD d 0) + j).toNat, by omega⟩
  have him : i < m := by omega
  have e1 : rd dval p = some (dval.getD (i + m * d) 0) := rd_dval hdv hd him (by rw [hp, mul_comm]; omega)
  have e2 : rd x q = some (x.getD ((i : Int) + off.getD d 0).toNat 0) := by
    rw [hq, show max 0 (off.getD d 0) + j = (i : Int) + off.getD d 0 by omega]
    exact (Rep.of_list x 0).rd (by omega) (by omega)
  simp only [e1, e2, Option.bind_eq_bind, Option.bind_some, ← hi]
  refine addAt_moves (ab := (dval.getD (i + m * d) 0, x.getD ((i : Int) + off.getD d 0).toNat 0)) (by omega) (by omega) ?_
  unfold diaPair
  rw [Int.toNat_natCast, if_pos (by omega)]

omit [One R] [DecidableEq R] in
theorem diaRefDiag_moves {len : Nat} (hm : m ≤ len) (hx : n ≤ x.length) (hoff : nd ≤ off.length)
    (hdv : m * nd ≤ dval.length) {d : Nat} (hd : d < nd) :
    Moves len (diaRefDiag alpha m n dval off x (d : Int)) (diaStepQ alpha m n off dval x d) := by
  have e : rd off (d : Int) = some (off.getD d 0) := by
    rw [rd_ofNat]; simp [show d < off.length by omega]
  intro y f hy
  unfold diaRefDiag
  rw [e]
  simp only [Option.bind_eq_bind, Option.bind_some]
  by_cases hn : 0 ≤ min ((m : Int) - max 0 (-off.getD d 0)) ((n : Int) - max 0 (off.getD d 0))
  · obtain ⟨y', f', e', r, q⟩ := moves_forC_win (len := len) (a := max 0 (-off.getD d 0)) (base := 0) (le_refl 0)
      (hi := min ((m : Int) - max 0 (-off.getD d 0)) ((n : Int) - max 0 (off.getD d 0)))
      (fun j h0 h1 => diaOne_moves (alpha := alpha) hm hx hdv hd h0 h1 rfl (q := j + max 0 (off.getD d 0)) (by omega))
      (y := y) (s := y) (f := f) ⟨f, hy, fun k _ => ⟨fun h => by omega, fun _ => rfl⟩⟩ hn
    refine ⟨y', f', e', r, fun k hk => diaStepQ_of_win k _ _ ?_⟩
    simpa only [add_zero] using q k hk
  · refine ⟨y, f, by rw [forC_ge (by omega)], hy, fun k _ => diaStepQ_of_win k _ _ ?_⟩
    exact ⟨fun h => by omega, fun _ => rfl⟩

omit [One R] [DecidableEq R] in
theorem diaVecDiag_moves {len K : Nat} (hm : m ≤ len) (hx : n ≤ x.length)
    (hdv : m * nd ≤ dval.length) {d : Nat} (hd : d < nd) {j : Int} (h0 : 0 ≤ j)
    (h1 : j + K ≤ min ((m : Int) - max 0 (-off.getD d 0)) ((n : Int) - max 0 (off.getD d 0))) :
    Moves len (diaVecDiag K alpha dval x (max 0 (-off.getD d 0) + (d : Int) * m) (max 0 (off.getD d 0))
        (max 0 (-off.getD d 0)) j)
      (winQ (max 0 (-off.getD d 0) + j) (max 0 (-off.getD d 0) + j + K)
      (fun k v w => ∃ ab, diaPair m n off dval x k d = some ab ∧ DiaAcc alpha ab v w)) := by
  intro y f hy
  have h2 : m * (d + 1) ≤ m * nd := Nat.mul_le_mul_left m hd
  rw [Nat.mul_succ] at h2
  have hdm : (d : Int) * m = ((m * d : Nat) : Int) := by push_cast; rw [mul_comm]
  unfold diaVecDiag
  rw [hdm, vload_rep (Rep.of_list dval 0) (by omega) (by omega),
    vload_rep (Rep.of_list x 0) (by omega) (by omega), vload_rep hy (by omega) (by omega)]
  simp only [Option.bind_eq_bind, Option.bind_some, List.map_map, zip3_map]
  obtain ⟨b, hb, hr⟩ := vstore_rep hy (p := max 0 (-off.getD d 0) + j) (K := K)
    (fun l => ((fun v => v * alpha) ∘ fun l => dval.getD ((max 0 (-off.getD d 0) + ((m * d : Nat) : Int) + j).toNat + l) 0) l
      * x.getD ((max 0 (off.getD d 0) + j).toNat + l) 0 + f ((max 0 (-off.getD d 0) + j).toNat + l))
    (by omega) (by omega)
  refine ⟨b, _, hb, hr, fun k hk => ?_⟩
  by_cases hc : max 0 (-off.getD d 0) + j ≤ (k : Int) ∧ (k : Int) < max 0 (-off.getD d 0) + j + K
  · refine ⟨fun _ => ?_, fun h => absurd hc h⟩
    rw [if_pos hc]
    simp only [Function.comp]
    rw [show (max 0 (-off.getD d 0) + ((m * d : Nat) : Int) + j).toNat
        + (k - (max 0 (-off.getD d 0) + j).toNat) = k + m * d by omega,
      show (max 0 (off.getD d 0) + j).toNat + (k - (max 0 (-off.getD d 0) + j).toNat)
        = ((k : Int) + off.getD d 0).toNat by omega,
      show (max 0 (-off.getD d 0) + j).toNat + (k - (max 0 (-off.getD d 0) + j).toNat) = k by omega]
    exact ⟨_, by unfold diaPair; rw [if_pos (by omega)], _, .inr rfl, .inr rfl⟩
  · refine ⟨fun h => absurd h hc, fun _ => ?_⟩
    rw [if_neg hc]

omit [One R] [DecidableEq R] in
theorem diaKtDiag_moves {len K : Nat} (hm : m ≤ len) (hx : n ≤ x.length) (hoff : nd ≤ off.length)
    (hdv : m * nd ≤ dval.length) {d : Nat} (hd : d < nd) :
    Moves len (diaKtDiag K alpha m n dval off x (d : Int)) (diaStepQ alpha m n off dval x d) := by
  have e : rd off (d : Int) = some (off.getD d 0) := by
    rw [rd_ofNat]; simp [show d < off.length by omega]
  intro y f hy
  unfold diaKtDiag
  rw [e]
  simp only [Option.bind_eq_bind, Option.bind_some]
  by_cases hneg : min ((m : Int) - max 0 (-off.getD d 0)) ((n : Int) - max 0 (off.getD d 0)) ≤ 0
  · rw [if_pos hneg]
    refine ⟨y, f, rfl, hy, fun k _ => diaStepQ_of_win k _ _ ?_⟩
    exact ⟨fun h => by omega, fun _ => rfl⟩
  · rw [if_neg hneg]
    obtain ⟨y', f', e', r, q⟩ := moves_blocks (len := len) (K := K) (a := max 0 (-off.getD d 0)) (lo := 0)
      (hi := min ((m : Int) - max 0 (-off.getD d 0)) ((n : Int) - max 0 (off.getD d 0))) (le_refl _)
      (fun j h0 h1 => diaVecDiag_moves (alpha := alpha) (K := K) hm hx hdv hd h0 h1)
      (fun j h0 h1 => diaOne_moves (alpha := alpha) hm hx hdv hd h0 h1 rfl rfl) y f hy
    refine ⟨y', f', e', r, fun k hk => diaStepQ_of_win k _ _ ?_⟩
    simpa only [add_zero] using q k hk

omit [One R] [DecidableEq R] in
/-- all diagonals -/
theorem diaAll_moves {len : Nat} {body : Int → List R → Option (List R)}
    (hb : ∀ d : Nat, d < nd → Moves len (body (d : Int)) (diaStepQ alpha m n off dval x d)) :
    Moves len (forC 0 (nd : Int) body) (fun k v w => if k < m then DiaChain alpha v (diaPairs m n nd off dval x k) w
      else w = v) := by
  intro y f hy
  obtain ⟨y', e, f', r, q⟩ := forC_inv_nat (n := nd) (f := body) (s := y)
    (P := fun d s => ∃ f', Rep s len f' ∧ ∀ k, k < len → if k < m then
      DiaChain alpha (f k) (diaPairs m n d off dval x k) (f' k) else f' k = f k)
    ⟨f, hy, fun k _ => by split <;> rfl⟩ (by
      rintro d s hd ⟨f', r, q⟩
      obtain ⟨y', f2, e, r2, q2⟩ := hb d hd s f' r
      refine ⟨y', e, f2, r2, fun k hk => ?_⟩
      have q := q k hk
      have q2 := q2 k hk
      unfold diaStepQ at q2
      by_cases hkm : k < m
      · rw [if_pos hkm] at q q2 ⊢
        unfold diaPairs at q ⊢
        rw [List.range_succ, List.filterMap_append]
        rcases hp : diaPair m n off dval x k d with _ | ab
        · rw [hp] at q2
          simp only at q2
          rw [q2]
          simpa [hp] using q
        · rw [hp] at q2
          have := q.snoc q2
          simpa [hp] using this
      · rw [if_neg hkm] at q q2 ⊢
        rw [q2, q])
  exact ⟨y', f', e, r, q⟩

/-- an element computed diagonal by diagonal -/
def DiaDiagR (alpha beta : R) (L : List (R × R)) (v w : R) : Prop :=
  ∃ r, (r = sc beta v ∨ r = scR beta v) ∧ DiaChain alpha r L w

/-- an element computed row by row -/
def DiaRowR (alpha beta : R) (L : List (R × R)) (v w : R) : Prop :=
  ∃ s r, (s = dotRight 0 L ∨ s = dotLeft 0 L) ∧ (r = alpha * s ∨ r = s * alpha) ∧
    w = if beta = 0 then r else if beta = 1 then v + r else v * beta + r

/-- all elements -/
def DiaAllR (P : List (R × R) → R → R → Prop) (m n nd : Nat) (off : List Int) (dval x y y' : List R) : Prop :=
  ∃ f', Rep y' y.length f' ∧ ∀ k, k < y.length → if k < m then P (diaPairs m n nd off dval x k) (y.getD k 0) (f' k)
    else f' k = y.getD k 0

theorem diamvRef_val {y : List R} (hm : m ≤ y.length) (hx : n ≤ x.length)
    (hoff : nd ≤ off.length) (hdv : m * nd ≤ dval.length) :
    ∃ y', diamvRef alpha m n dval off nd x beta y = some y' ∧
      DiaAllR (DiaDiagR alpha beta) m n nd off dval x y y' := by
  unfold diamvRef
  obtain ⟨y1, e1, r1⟩ := scaleY_spec (beta := beta) (Rep.of_list y 0) hm
  obtain ⟨y2, f2, e2, r2, q2⟩ := diaAll_moves (len := y.length) (fun d hd =>
    diaRefDiag_moves (alpha := alpha) (x := x) hm hx hoff hdv hd) y1 _ r1
  refine ⟨y2, by rw [e1, Option.bind_some, e2], f2, r2, fun k hk => ?_⟩
  have := q2 k hk
  by_cases hkm : k < m
  · rw [if_pos hkm] at this ⊢
    rw [if_pos hkm] at this
    exact ⟨_, .inl rfl, this⟩
  · simp only [if_neg hkm] at this ⊢
    exact this

theorem diamvDiagmaj_val {K : Nat} {y : List R} (hm : m ≤ y.length) (hx : n ≤ x.length)
    (hoff : nd ≤ off.length) (hdv : m * nd ≤ dval.length) :
    ∃ y', diamvDiagmaj K alpha m n dval off nd x beta y = some y' ∧
      DiaAllR (DiaDiagR alpha beta) m n nd off dval x y y' := by
  unfold diamvDiagmaj
  obtain ⟨y1, e1, r1⟩ := diaScale_val (K := K) (beta := beta) hm
  obtain ⟨y2, f2, e2, r2, q2⟩ := diaAll_moves (len := y.length) (fun d hd =>
    diaKtDiag_moves (K := K) (alpha := alpha) (x := x) hm hx hoff hdv hd) y1 _ r1
  refine ⟨y2, by rw [e1, Option.bind_some, e2], f2, r2, fun k hk => ?_⟩
  have := q2 k hk
  by_cases hkm : k < m
  · rw [if_pos hkm] at this ⊢
    rw [if_pos hkm] at this
    exact ⟨_, .inr rfl, this⟩
  · simp only [if_neg hkm] at this ⊢
    exact this

/-! ### row-major kernel -/

theorem diaScalarRow_val {len : Nat} (hm : m ≤ len) (hx : n ≤ x.length) (hoff : nd ≤ off.length)
    (hdv : m * nd ≤ dval.length) {i : Int} (h0 : 0 ≤ i) (hi : i < m) :
    Moves len (diaScalarRow alpha beta m n dval off nd x i)
      (winQ i (i + 1) (fun k v w => DiaRowR alpha beta (diaPairs m n nd off dval x k) v w)) := by
  intro y f hy
  obtain ⟨i, rfl⟩ : ∃ t : Nat, i = t := ⟨i.toNat, by omega⟩
  have hi : i < m := by omega
  unfold diaScalarRow
  obtain ⟨s, e1, h1⟩ := forC_inv_nat (n := nd) (s := (0 : R))
    (f := fun j s => do
      let o ← rd off j
      let col := (i : Int) + o
      if 0 ≤ col ∧ col < n then do
        let v ← rd dval (j * m + i)
        let xv ← rd x col
        some (s + v * xv)
      else some s)
    (P := fun j s => s = dotRight 0 (diaPairs m n j off dval x i)) rfl (by
      intro d s hd hs
      have e : rd off (d : Int) = some (off.getD d 0) := by
        rw [rd_ofNat]; simp [show d < off.length by omega]
      simp only [e, Option.bind_eq_bind, Option.bind_some]
      unfold diaPairs at hs ⊢
      rw [List.range_succ, List.filterMap_append, dotRight_append, ← hs]
      by_cases hc : 0 ≤ (i : Int) + off.getD d 0 ∧ (i : Int) + off.getD d 0 < n
      · rw [if_pos hc, rd_dval hdv hd hi (by rw [mul_comm, add_comm])]
        have e2 : rd x ((i : Int) + off.getD d 0) = some (x.getD ((i : Int) + off.getD d 0).toNat 0) :=
          (Rep.of_list x 0).rd (by omega) (by omega)
        rw [e2]
        have hp : diaPair m n off dval x i d = some (dval.getD (i + m * d) 0,
            x.getD ((i : Int) + off.getD d 0).toNat 0) := by
          unfold diaPair; rw [if_pos hc]
        exact ⟨_, rfl, by rw [List.filterMap_cons, hp]; rfl⟩
      · rw [if_neg hc]
        have hp : diaPair m n off dval x i d = none := by
          unfold diaPair; rw [if_neg hc]
        exact ⟨_, rfl, by rw [List.filterMap_cons, hp]; rfl⟩)
  simp only [Option.bind_eq_bind] at e1
  simp only [Option.bind_eq_bind, e1, Option.bind_some, hy.rd_nat (show i < len by omega)]
  obtain ⟨y', e', r'⟩ := hy.wr_nat (i := i)
    (if beta = 0 then alpha * s else if beta = 1 then f i + alpha * s else f i * beta + alpha * s) (by omega)
  refine ⟨y', _, e', r', fun k _ => ?_⟩
  by_cases hk : k = i
  · subst hk
    rw [Function.update_self]
    exact ⟨fun _ => ⟨s, _, .inl h1, .inl rfl, rfl⟩, fun h => by omega⟩
  · rw [Function.update_of_ne hk]
    exact ⟨fun h => by omega, fun _ => rfl⟩

theorem diaVecRow_val {len K : Nat} (hK : 0 < K) (hm : m ≤ len) (hx : n ≤ x.length)
    (hoff : nd ≤ off.length) (hdv : m * nd ≤ dval.length) {rb re : Int}
    (hb : DiaBand m n nd off rb re) {i : Int} (h1 : rb ≤ i) (h2 : i + K ≤ re) :
    Moves len (diaVecRow K alpha beta m dval off nd x i)
      (winQ i (i + K) (fun k v w => DiaRowR alpha beta (diaPairs m n nd off dval x k) v w)) := by
  intro y f hy
  have hrb := hb.rb0
  have hre := hb.rem
  unfold diaVecRow
  obtain ⟨s, e1, hs⟩ := forC_inv_nat (n := nd) (s := List.replicate K (0 : R))
    (f := fun j s => do
      let o ← rd off j
      let v ← vload dval (j * m + i) K
      let xv ← vload x (i + o) K
      some (List.zipWith (fun ab c => ab.1 * ab.2 + c) (List.zip v xv) s))
    (P := fun j s => s = (List.range K).map fun l => dotLeft 0 (diaPairs m n j off dval x (i.toNat + l)))
    (by rw [replicate_map]; rfl) (by
      intro d s hd hs
      have e : rd off (d : Int) = some (off.getD d 0) := by
        rw [rd_ofNat]; simp [show d < off.length by omega]
      have h3 := hb.lo d hd
      have h4 := hb.hi d hd (by omega)
      have h5 : m * (d + 1) ≤ m * nd := Nat.mul_le_mul_left m hd
      rw [Nat.mul_succ] at h5
      have hdm : (d : Int) * m = ((m * d : Nat) : Int) := by push_cast; rw [mul_comm]
      rw [e, hdm, vload_rep (Rep.of_list dval 0) (by omega) (by omega)]
      simp only [Option.bind_eq_bind, Option.bind_some]
      rw [vload_rep (Rep.of_list x 0) (by omega) (by omega)]
      simp only [Option.bind_some]
      refine ⟨_, rfl, ?_⟩
      rw [hs, zip3_map]
      apply List.map_congr_left
      intro l hl
      have hl : l < K := by simpa using hl
      unfold diaPairs
      rw [List.range_succ, List.filterMap_append, dotLeft_append]
      have hp : diaPair m n off dval x (i.toNat + l) d = some (dval.getD (i.toNat + l + m * d) 0,
          x.getD (((i.toNat + l : Nat) : Int) + off.getD d 0).toNat 0) := by
        unfold diaPair; rw [if_pos (by omega)]
      have hl1 : [d].filterMap (diaPair m n off dval x (i.toNat + l)) = [(dval.getD (i.toNat + l + m * d) 0,
          x.getD (((i.toNat + l : Nat) : Int) + off.getD d 0).toNat 0)] := by
        rw [List.filterMap_cons, hp]; rfl
      rw [hl1, show (((m * d : Nat) : Int) + i).toNat + l = i.toNat + l + m * d by omega,
        show (((i.toNat + l : Nat) : Int) + off.getD d 0).toNat = (i + off.getD d 0).toNat + l by omega]
      rfl)
  simp only [Option.bind_eq_bind] at e1
  simp only [Option.bind_eq_bind, e1, Option.bind_some]
  rw [vload_rep hy (by omega) (by omega)]
  simp only [Option.bind_some]
  have hst : (if beta = 0 then s.map fun s => s * alpha else if beta = 1 then
      List.zipWith (· + ·) ((List.range K).map fun l => f (i.toNat + l)) (s.map fun s => s * alpha)
      else List.zipWith (fun yi ri => yi * beta + ri) ((List.range K).map fun l => f (i.toNat + l))
        (s.map fun s => s * alpha))
      = (List.range K).map fun l =>
          if beta = 0 then dotLeft 0 (diaPairs m n nd off dval x (i.toNat + l)) * alpha
          else if beta = 1 then f (i.toNat + l) + dotLeft 0 (diaPairs m n nd off dval x (i.toNat + l)) * alpha
          else f (i.toNat + l) * beta + dotLeft 0 (diaPairs m n nd off dval x (i.toNat + l)) * alpha := by
    rw [hs, List.map_map, zip2_map, zip2_map]
    by_cases h0 : beta = 0
    · simp only [if_pos h0]
      rfl
    · by_cases h1 : beta = 1
      · simp only [if_neg h0, if_pos h1]
        rfl
      · simp only [if_neg h0, if_neg h1]
        rfl
  rw [hst]
  obtain ⟨b, hb1, hb2⟩ := vstore_rep hy (p := i) (K := K)
    (fun l => if beta = 0 then dotLeft 0 (diaPairs m n nd off dval x (i.toNat + l)) * alpha
          else if beta = 1 then f (i.toNat + l) + dotLeft 0 (diaPairs m n nd off dval x (i.toNat + l)) * alpha
          else f (i.toNat + l) * beta + dotLeft 0 (diaPairs m n nd off dval x (i.toNat + l)) * alpha)
    (by omega) (by omega)
  refine ⟨b, _, hb1, hb2, fun k _ => ?_⟩
  by_cases hc : i ≤ (k : Int) ∧ (k : Int) < i + K
  · refine ⟨fun _ => ?_, fun h => absurd hc h⟩
    rw [if_pos hc, show i.toNat + (k - i.toNat) = k by omega]
    exact ⟨_, _, .inr rfl, .inr rfl, rfl⟩
  · refine ⟨fun h => absurd h hc, fun _ => ?_⟩
    rw [if_neg hc]

theorem diamvRowmaj_val {K : Nat} (hK : 0 < K) {y : List R} (hm : m ≤ y.length)
    (hx : n ≤ x.length) (hoff : nd ≤ off.length) (hdv : m * nd ≤ dval.length) {rb re : Int}
    (hb : DiaBand m n nd off rb re) :
    ∃ y', diamvRowmaj K alpha m n dval off nd rb re x beta y = some y' ∧
      DiaAllR (DiaRowR alpha beta) m n nd off dval x y y' := by
  have hrb := hb.rb0
  have hre := hb.rem
  unfold diamvRowmaj
  obtain ⟨y1, f1, e1, r1, q1⟩ := moves_forC_win (len := y.length) (a := 0) (base := 0) (le_refl 0)
    (hi := min rb m) (G := fun k v w => DiaRowR alpha beta (diaPairs m n nd off dval x k) v w)
    (fun j h0 h1 => by
      have := diaScalarRow_val (alpha := alpha) (beta := beta) hm hx hoff hdv h0 (show j < m by omega)
      simpa only [zero_add] using this) (y := y) (s := y) (f := fun k => y.getD k 0)
    ⟨_, Rep.of_list y 0, fun k _ => ⟨fun h => by omega, fun _ => rfl⟩⟩ (by omega)
  simp only [Option.bind_eq_bind, e1, Option.bind_some]
  obtain ⟨y2, f2, e2, r2, q2⟩ := moves_blocks (len := y.length) (K := K) (a := 0) (lo := rb) (hi := m) (e := re)
    (G := fun k v w => DiaRowR alpha beta (diaPairs m n nd off dval x k) v w) (by omega)
    (fun j h1 h2 => by
      have := diaVecRow_val (alpha := alpha) (beta := beta) hK hm hx hoff hdv hb h1 h2
      simpa only [zero_add] using this)
    (fun j h1 h2 => by
      have := diaScalarRow_val (alpha := alpha) (beta := beta) hm hx hoff hdv (show 0 ≤ j by omega) h2
      simpa only [zero_add] using this) y1 f1 r1
  refine ⟨y2, e2, f2, r2, fun k hk => ?_⟩
  have q1 := q1 k hk
  have q2 := q2 k hk
  by_cases hkm : k < m
  · rw [if_pos hkm]
    by_cases hc : rb ≤ (k : Int)
    · rw [← q1.2 (by omega)]
      exact q2.1 (by omega)
    · rw [q2.2 (by omega)]
      exact q1.1 (by omega)
  · rw [if_neg hkm, q2.2 (by omega), q1.2 (by omega)]

/-- does the call work row by row (diamv.hpp:236-252)? -/
def diaRows (ref : Bool) (mode : Int) (m n : Nat) (off : List Int) (nd : Nat) : Bool :=
  !ref && decide (mode ≠ 0) && (decide (mode = 1) || (decide (mode ≠ 2) &&
    ((diaHeuristic m n off nd).map fun h => !h.1).getD false))

/-- the reference kernel? -/
def _root_.Verif.Model.DiaKernel.isRef : DiaKernel → Bool
  | .ref => true
  | .kt _ => false

theorem diamv_val {ker : DiaKernel} {mode : Int} (hker : ∀ K, ker = .kt K → 0 < K) {y : List R}
    (hm0 : m ≠ 0) (hn0 : n ≠ 0) (hm : m ≤ y.length) (hx : n ≤ x.length) (hoff : nd ≤ off.length)
    (hdv : m * nd ≤ dval.length) :
    ∃ y', diamv ker mode alpha m n dval off nd x beta y = some y' ∧
      DiaAllR (if diaRows ker.isRef mode m n off nd then DiaRowR alpha beta else DiaDiagR alpha beta)
        m n nd off dval x y y' := by
  unfold diamv
  rw [if_neg (by omega)]
  obtain ⟨h, e, hb⟩ := diaHeuristic_spec (m := m) (n := n) hoff
  unfold diaRows
  simp only [e, Option.bind_eq_bind, Option.bind_some, Option.map_some, Option.getD_some]
  by_cases hmode : mode = 0
  · simp only [hmode, if_true]
    have := diamvRef_val (alpha := alpha) (beta := beta) hm hx hoff hdv
    simpa using this
  · simp only [hmode, if_false]
    cases ker with
    | ref =>
      have := diamvRef_val (alpha := alpha) (beta := beta) hm hx hoff hdv
      simpa [DiaKernel.isRef] using this
    | kt K =>
      have hr := diamvRowmaj_val (alpha := alpha) (beta := beta) (hker K rfl) hm hx hoff hdv hb
      have hd := diamvDiagmaj_val (K := K) (alpha := alpha) (beta := beta) hm hx hoff hdv
      by_cases h1 : mode = 1
      · subst h1
        simpa [DiaKernel.isRef] using hr
      · by_cases h2 : mode = 2
        · subst h2
          simpa [DiaKernel.isRef] using hd
        · rcases hh : h.1 with _ | _
          · simpa [DiaKernel.isRef, h1, h2, hh, hmode] using hr
          · simpa [DiaKernel.isRef, h1, h2, hh, hmode] using hd

end
end Verif
