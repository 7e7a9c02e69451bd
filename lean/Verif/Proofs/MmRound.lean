import Verif.Spec.Contract
import Verif.Spec.MmExact
import Verif.Proofs.Rounding
import Verif.Proofs.MmExact2
import Verif.Proofs.Rounded

/-!
Rounding errors of the elements of a sparse times dense product.
-/

namespace Verif
open Model Rounding

variable {R : Type} [Zero R] [Add R] [Mul R] {ρ : Rounding} {v : R → ℝ} {fac : R → Option (ℝ × ℝ)}

/-- `x` is near, and so is the product it would be replaced by -/
def NearC (ρ : Rounding) (v : R → ℝ) (fac : R → Option (ℝ × ℝ)) (k : Nat) (e s : ℝ) (x : R) : Prop :=
  ρ.Near k e s (v x) ∧ ∀ p q, fac x = some (p, q) → ρ.Near k e s (p * q)

omit [Zero R] [Add R] [Mul R] in
theorem NearC.mono {k l : Nat} {e s : ℝ} {x : R} (h : NearC ρ v fac k e s x) (hl : k ≤ l) : NearC ρ v fac l e s x :=
  ⟨h.1.mono hl, fun p q hq => (h.2 p q hq).mono hl⟩

omit [Zero R] [Add R] [Mul R] in
theorem NearC.plain {x : R} (hx : fac x = none) : NearC ρ v fac 0 (v x) |v x| x :=
  ⟨Near.exact _, fun p q hq => by rw [hx] at hq; cases hq⟩

theorem NearC.zero (hR : Contracts ρ v fac) : NearC ρ v fac 0 0 0 (0 : R) := by
  have := NearC.plain (ρ := ρ) (v := v) hR.zero_fac
  rwa [hR.zero, abs_zero] at this

theorem NearC.mul_left (hR : Contracts ρ v fac) {k : Nat} {e s : ℝ} (a : R) {x : R} (h : NearC ρ v fac k e s x) :
    NearC ρ v fac (k + 1) (v a * e) (|v a| * s) (a * x) := by
  refine ⟨?_, fun p q hq => ?_⟩
  · rw [hR.mul]; exact (h.1.smul _).round
  · obtain ⟨rfl, rfl⟩ := hR.mul_fac _ _ _ _ hq
    exact (h.1.smul _).mono (Nat.le_succ _)

theorem NearC.mul_right (hR : Contracts ρ v fac) {k : Nat} {e s : ℝ} (a : R) {x : R} (h : NearC ρ v fac k e s x) :
    NearC ρ v fac (k + 1) (v a * e) (|v a| * s) (x * a) := by
  refine ⟨?_, fun p q hq => ?_⟩
  · rw [hR.mul, mul_comm (v x)]; exact (h.1.smul _).round
  · obtain ⟨rfl, rfl⟩ := hR.mul_fac _ _ _ _ hq
    rw [mul_comm (v x)]
    exact (h.1.smul _).mono (Nat.le_succ _)

theorem NearC.add (hR : Contracts ρ v fac) {k : Nat} {e s e' s' : ℝ} {x y : R} (h : NearC ρ v fac k e s x)
    (h' : NearC ρ v fac k e' s' y) : NearC ρ v fac (k + 1) (e + e') (s + s') (x + y) := by
  refine ⟨?_, fun p q hq => by rw [hR.add_fac] at hq; cases hq⟩
  rcases hR.add x y with g | ⟨p, q, hp, g⟩ | ⟨p, q, hp, g⟩ <;> rw [g]
  · exact (h.1.add h'.1).round
  · exact ((h.2 p q hp).add h'.1).round
  · exact (h.1.add (h'.2 p q hp)).round

/-- exact sum of products -/
def dotV (v : R → ℝ) (L : List (R × R)) : ℝ := (L.map fun ab => v ab.1 * v ab.2).sum
/-- sum of the sizes of products -/
def dotS (v : R → ℝ) (L : List (R × R)) : ℝ := (L.map fun ab => |v ab.1| * |v ab.2|).sum

/-- no operand is a product -/
def PlainL (fac : R → Option (ℝ × ℝ)) (L : List (R × R)) : Prop := ∀ ab ∈ L, fac ab.1 = none ∧ fac ab.2 = none

theorem NearC.prod (hR : Contracts ρ v fac) {a b : R} (ha : fac b = none) :
    NearC ρ v fac 1 (v a * v b) (|v a| * |v b|) (a * b) := NearC.mul_left hR a (NearC.plain ha)

theorem dotLeft_near (hR : Contracts ρ v fac) {L : List (R × R)} (hL : PlainL fac L) :
    ∀ {r : R} {k : Nat} {e s : ℝ}, 1 ≤ k → NearC ρ v fac k e s r →
      NearC ρ v fac (k + L.length) (e + dotV v L) (s + dotS v L) (dotLeft r L) := by
  induction L with
  | nil => intro r k e s _ h; simpa [dotV, dotS, dotLeft] using h
  | cons ab L ih =>
    intro r k e s hk h
    have hp := ((NearC.prod hR (a := ab.1) (hL ab (.head _)).2).mono hk).add hR h
    have := ih (fun x hx => hL x (.tail _ hx)) (by omega) hp
    have e1 : v ab.1 * v ab.2 + e + dotV v L = e + dotV v (ab :: L) := by unfold dotV; simp; ring
    have e2 : |v ab.1| * |v ab.2| + s + dotS v L = s + dotS v (ab :: L) := by unfold dotS; simp; ring
    rw [e1, e2, show k + 1 + L.length = k + (ab :: L).length by simp; omega] at this
    exact this

theorem dotLeft0_near (hR : Contracts ρ v fac) {L : List (R × R)} (hL : PlainL fac L) :
    NearC ρ v fac (L.length + 1) (dotV v L) (dotS v L) (dotLeft 0 L) := by
  have := dotLeft_near hR hL (le_refl 1) ((NearC.zero hR).mono (Nat.zero_le 1))
  rw [zero_add, zero_add, Nat.add_comm] at this
  exact this

/-! ### registers -/

theorem LaneTree.near (hR : Contracts ρ v fac) {L : List R} {k : Nat} {ev sv : Nat → ℝ} :
    ∀ t : LaneTree, (∀ l ∈ t.lanes, NearC ρ v fac k (ev l) (sv l) (L.getD l 0)) →
      NearC ρ v fac (k + t.depth) (t.lanes.map ev).sum (t.lanes.map sv).sum (t.eval L)
  | .lane l, h => by simpa [LaneTree.lanes, LaneTree.depth, LaneTree.eval] using h l (by simp [LaneTree.lanes])
  | .add s t, h => by
    have hs := LaneTree.near hR s fun l hl => h l (by simp [LaneTree.lanes, hl])
    have ht := LaneTree.near hR t fun l hl => h l (by simp [LaneTree.lanes, hl])
    have := (hs.mono (show k + s.depth ≤ k + max s.depth t.depth by omega)).add hR
      (ht.mono (show k + t.depth ≤ k + max s.depth t.depth by omega))
    simpa [LaneTree.lanes, LaneTree.depth, LaneTree.eval, Nat.add_assoc] using this

/-- the pairs that lane `l` adds up in `q` steps -/
def laneOf (K : Nat) (L : List (R × R)) (q l : Nat) : List (R × R) := (List.range q).map fun t => L.getD (K * t + l) (0, 0)

omit [Add R] [Mul R] in
theorem laneOf_succ (K : Nat) (L : List (R × R)) (q l : Nat) :
    laneOf K L (q + 1) l = laneOf K L q l ++ [L.getD (K * q + l) (0, 0)] := by
  simp [laneOf, List.range_succ]

theorem vecLanes_fold (K : Nat) (hs : List R → R) (L : List (R × R)) : ∀ q, K * q ≤ L.length →
    (List.range q).foldl (fun s t => (vecLanes K hs).fma ((L.drop (K * t)).take K) s) (vecLanes K hs).zero
      = (List.range K).map fun l => dotLeft 0 (laneOf K L q l)
  | 0, _ => by
    simp [laneOf, dotLeft, vecLanes, List.map_const']
  | q + 1, h => by
    have hq : K * q + K ≤ L.length := by rw [Nat.mul_succ] at h; exact h
    rw [List.range_succ, List.foldl_append, vecLanes_fold K hs L q (by omega)]
    show List.zipWith _ _ _ = _
    apply List.ext_getElem
    · simp; omega
    · intro l h1 h2
      have hl : l < K := by simpa using h2
      rw [List.getElem_zipWith, List.getElem_map, List.getElem_map, List.getElem_range, laneOf_succ]
      unfold dotLeft
      rw [List.foldl_append]
      simp only [List.foldl_cons, List.foldl_nil, List.getElem_take, List.getElem_drop]
      rw [List.getD_eq_getElem?_getD, List.getElem?_eq_getElem (by omega)]
      rfl

/-- the lanes together have all pairs -/
theorem lanes_sum (f : R × R → ℝ) (K : Nat) (L : List (R × R)) : ∀ q, K * q ≤ L.length →
    ((List.range K).map fun l => ((laneOf K L q l).map f).sum).sum = ((L.take (K * q)).map f).sum
  | 0, _ => by simp [laneOf]
  | q + 1, h => by
    have hq : K * q + K ≤ L.length := by rw [Nat.mul_succ] at h; exact h
    have e : L.take (K * (q + 1)) = L.take (K * q) ++ (List.range K).map fun l => L.getD (K * q + l) (0, 0) := by
      rw [Nat.mul_succ, List.take_add]
      congr 1
      apply List.ext_getElem
      · simp; omega
      · intro l h1 h2
        have hl : l < K := by simpa using h2
        rw [List.getElem_take, List.getElem_drop, List.getElem_map, List.getElem_range,
          List.getD_eq_getElem?_getD, List.getElem?_eq_getElem (by omega)]
        rfl
    rw [e, List.map_append, List.sum_append, ← lanes_sum f K L q (by omega), List.map_map, ← List.sum_map_add]
    congr 1
    apply List.map_congr_left
    intro l _
    rw [laneOf_succ]
    simp

theorem dotLanes_near (hR : Contracts ρ v fac) {K d : Nat} (hK : 0 < K) {hs : List R → R} (hh : AddsLanes K d hs)
    {L : List (R × R)} (hL : PlainL fac L) :
    NearC ρ v fac (L.length + d + 2) (dotV v L) (dotS v L) (dotLanes (vecLanes K hs) K L) := by
  have hq : K * (L.length / K) ≤ L.length := Nat.mul_div_le _ _
  have hsplit : L.take (K * (L.length / K)) ++ L.drop (K * (L.length / K)) = L := List.take_append_drop _ _
  have hrest : PlainL fac (L.drop (K * (L.length / K))) := fun ab hab => hL ab (List.mem_of_mem_drop hab)
  have hle : L.length / K + (L.length - K * (L.length / K)) ≤ L.length := by
    have : L.length / K ≤ K * (L.length / K) := Nat.le_mul_of_pos_left _ hK
    omega
  unfold dotLanes
  split
  · obtain ⟨t, hp, hd, ht⟩ := hh
    rw [vecLanes_fold K hs L _ hq]
    have hreg : NearC ρ v fac (L.length / K + 1 + d) (dotV v (L.take (K * (L.length / K))))
        (dotS v (L.take (K * (L.length / K))))
        (hs ((List.range K).map fun l => dotLeft 0 (laneOf K L (L.length / K) l))) := by
      rw [ht _ (by simp)]
      have := LaneTree.near hR (L := (List.range K).map fun l => dotLeft 0 (laneOf K L (L.length / K) l))
        (k := L.length / K + 1) (ev := fun l => dotV v (laneOf K L (L.length / K) l))
        (sv := fun l => dotS v (laneOf K L (L.length / K) l)) t (by
          intro l hl
          have hl : l < K := by simpa using hp.mem_iff.1 hl
          rw [List.getD_eq_getElem?_getD, List.getElem?_eq_getElem (by simpa using hl), List.getElem_map,
            List.getElem_range]
          have := dotLeft0_near hR (L := laneOf K L (L.length / K) l) (by
            intro ab hab
            unfold laneOf at hab
            obtain ⟨u, hu, rfl⟩ := List.mem_map.1 hab
            have hu : u < L.length / K := by simpa using hu
            have hlt : K * u + l < L.length := by
              have : K * (u + 1) ≤ K * (L.length / K) := Nat.mul_le_mul_left _ hu
              rw [Nat.mul_succ] at this
              omega
            rw [List.getD_eq_getElem?_getD, List.getElem?_eq_getElem hlt]
            exact hL _ (List.getElem_mem _))
          simpa [laneOf] using this)
      rw [(hp.map _).sum_eq, (hp.map _).sum_eq] at this
      have e1 := lanes_sum (fun ab => v ab.1 * v ab.2) K L _ hq
      have e2 := lanes_sum (fun ab => |v ab.1| * |v ab.2|) K L _ hq
      unfold dotV dotS at this ⊢
      rw [e1, e2] at this
      exact this.mono (by omega)
    have h0 := ((NearC.zero hR).mono (Nat.zero_le _)).add hR hreg
    rw [zero_add, zero_add] at h0
    have := dotLeft_near hR hrest (Nat.succ_le_succ (Nat.zero_le _)) h0
    have eV : dotV v (L.take (K * (L.length / K))) + dotV v (L.drop (K * (L.length / K))) = dotV v L := by
      unfold dotV; rw [← List.sum_append, ← List.map_append, hsplit]
    have eS : dotS v (L.take (K * (L.length / K))) + dotS v (L.drop (K * (L.length / K))) = dotS v L := by
      unfold dotS; rw [← List.sum_append, ← List.map_append, hsplit]
    rw [eV, eS] at this
    exact this.mono (by rw [List.length_drop]; omega)
  · rename_i h
    have h : L.length / K = 0 := by by_contra g; exact h g
    rw [h, Nat.mul_zero, List.drop_zero]
    exact (dotLeft0_near hR hL).mono (by omega)

/-! ### elements -/

theorem lin_near (hR : Contracts ρ v fac) (alpha beta : R) {c : R} (hc : fac c = none) {k : Nat} {e s : ℝ} {x : R}
    (hx : NearC ρ v fac (k + 1) (v alpha * e) (|v alpha| * s) x) {y : R} (hy : y = beta * c ∨ y = c * beta) {z : R}
    (hz : z = x + y ∨ z = y + x) :
    NearC ρ v fac (k + 2) (v alpha * e + v beta * v c) (|v alpha| * s + |v beta| * |v c|) z := by
  have hy' : NearC ρ v fac (k + 1) (v beta * v c) (|v beta| * |v c|) y := by
    rcases hy with rfl | rfl
    · exact (NearC.mul_left hR beta (NearC.plain hc)).mono (by omega)
    · exact (NearC.mul_right hR beta (NearC.plain hc)).mono (by omega)
  rcases hz with rfl | rfl
  · exact hx.add hR hy'
  · rw [add_comm (v alpha * e), add_comm (|v alpha| * s)]
    exact hy'.add hR hx

theorem mmEltCol_near (hR : Contracts ρ v fac) {alpha beta c : R} (hc : fac c = none) {L : List (R × R)}
    (hL : PlainL fac L) :
    NearC ρ v fac (L.length + 3) (v alpha * dotV v L + v beta * v c) (|v alpha| * dotS v L + |v beta| * |v c|)
      (mmEltCol alpha beta c L) :=
  lin_near hR alpha beta hc (NearC.mul_left hR alpha (dotLeft0_near hR hL)) (.inl rfl) (.inr rfl)

theorem mmEltColVec_near (hR : Contracts ρ v fac) {K d : Nat} (hK : 0 < K) {hs : List R → R} (hh : AddsLanes K d hs)
    {alpha beta c : R} (hc : fac c = none) {L : List (R × R)} (hL : PlainL fac L) :
    NearC ρ v fac (L.length + (d + 4)) (v alpha * dotV v L + v beta * v c)
      (|v alpha| * dotS v L + |v beta| * |v c|) (mmEltColVec (vecLanes K hs) K alpha beta c L) :=
  (lin_near hR alpha beta hc (NearC.mul_right hR alpha (dotLanes_near hR hK hh hL)) (.inl rfl) (.inl rfl)).mono
    (by omega)

theorem fold_near (hR : Contracts ρ v fac) {alpha : R} {f : R → R × R → R}
    (hf : ∀ x ab, ∃ y, (y = ab.1 * ab.2 * alpha ∨ y = alpha * ab.1 * ab.2) ∧ (f x ab = x + y ∨ f x ab = y + x))
    (ha : fac alpha = none) {L : List (R × R)} (hL : PlainL fac L) :
    ∀ {r : R} {k : Nat} {e s : ℝ}, 2 ≤ k → NearC ρ v fac k e s r →
      NearC ρ v fac (k + L.length) (e + v alpha * dotV v L) (s + |v alpha| * dotS v L) (L.foldl f r) := by
  induction L with
  | nil => intro r k e s _ h; simpa [dotV, dotS] using h
  | cons ab L ih =>
    intro r k e s hk h
    obtain ⟨y, hy, hfy⟩ := hf r ab
    have hy' : NearC ρ v fac k (v alpha * (v ab.1 * v ab.2)) (|v alpha| * (|v ab.1| * |v ab.2|)) y := by
      rcases hy with rfl | rfl
      · exact (NearC.mul_right hR alpha (NearC.prod hR (hL ab (.head _)).2)).mono hk
      · have h1 := NearC.mul_right hR ab.2 (NearC.mul_right hR ab.1 (NearC.plain (ρ := ρ) (v := v) ha))
        have e1 : v ab.2 * (v ab.1 * v alpha) = v alpha * (v ab.1 * v ab.2) := by ring
        have e2 : |v ab.2| * (|v ab.1| * |v alpha|) = |v alpha| * (|v ab.1| * |v ab.2|) := by ring
        rw [e1, e2] at h1
        exact h1.mono hk
    have hs : NearC ρ v fac (k + 1) (v alpha * (v ab.1 * v ab.2) + e) (|v alpha| * (|v ab.1| * |v ab.2|) + s)
        (f r ab) := by
      rcases hfy with g | g <;> rw [g]
      · rw [add_comm (v alpha * _), add_comm (|v alpha| * _)]
        exact h.add hR hy'
      · exact hy'.add hR h
    have := ih (fun x hx => hL x (.tail _ hx)) (by omega) hs
    have e1 : v alpha * (v ab.1 * v ab.2) + e + v alpha * dotV v L = e + v alpha * dotV v (ab :: L) := by
      unfold dotV; simp; ring
    have e2 : |v alpha| * (|v ab.1| * |v ab.2|) + s + |v alpha| * dotS v L = s + |v alpha| * dotS v (ab :: L) := by
      unfold dotS; simp; ring
    rw [e1, e2, show k + 1 + L.length = k + (ab :: L).length by simp; omega] at this
    exact this

theorem rowFold_near (hR : Contracts ρ v fac) {alpha beta c : R} (hc : fac c = none) {f : R → R × R → R}
    (hf : ∀ x ab, ∃ y, (y = ab.1 * ab.2 * alpha ∨ y = alpha * ab.1 * ab.2) ∧ (f x ab = x + y ∨ f x ab = y + x))
    (ha : fac alpha = none) {L : List (R × R)} (hL : PlainL fac L) :
    NearC ρ v fac (L.length + 2) (v alpha * dotV v L + v beta * v c) (|v alpha| * dotS v L + |v beta| * |v c|)
      (L.foldl f (c * beta)) := by
  have := fold_near hR hf ha hL (le_refl 2) ((NearC.mul_right hR beta (NearC.plain hc)).mono (by omega))
  rw [add_comm (v beta * v c), add_comm (|v beta| * |v c|), Nat.add_comm 2] at this
  exact this

theorem mmEltRow_near (hR : Contracts ρ v fac) {alpha beta c : R} (hc : fac c = none) (ha : fac alpha = none)
    {L : List (R × R)} (hL : PlainL fac L) :
    NearC ρ v fac (L.length + 2) (v alpha * dotV v L + v beta * v c) (|v alpha| * dotS v L + |v beta| * |v c|)
      (mmEltRow alpha beta c L) :=
  rowFold_near hR hc (fun _ _ => ⟨_, .inl rfl, .inl rfl⟩) ha hL

theorem mmEltRowVec_near (hR : Contracts ρ v fac) {alpha beta c : R} (hc : fac c = none) (ha : fac alpha = none)
    {L : List (R × R)} (hL : PlainL fac L) :
    NearC ρ v fac (L.length + 2) (v alpha * dotV v L + v beta * v c) (|v alpha| * dotS v L + |v beta| * |v c|)
      (mmEltRowVec alpha beta c L) :=
  rowFold_near hR hc (fun _ _ => ⟨_, .inr rfl, .inr rfl⟩) ha hL

end Verif
