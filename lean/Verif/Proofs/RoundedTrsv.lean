/-
The triangular solvers subtract every product of a row exactly once, in some order.
No property of the arithmetic is used.
-/
import Verif.Model.RoundedTrsv
import Verif.Proofs.Rounded
import Verif.Proofs.Trsv

namespace Verif
open Model Finset

variable {R : Type} [Zero R] [One R] [Add R] [Sub R] [Neg R] [Mul R] [Div R] [DecidableEq R]
variable {icol : List Int} {a : List R} {base lo hi : Int} {S : List (Int × R)}
variable {x0 x : List R} {inc m : Nat} {g : Nat → R}

/-- the products of the entries `S` with the vector `g` -/
def prodsOf (S : List (Int × R)) (g : Nat → R) : Multiset (R × R) :=
  (S.map fun e => (e.2, g e.1.toNat) : List _)

omit [Zero R] [One R] [Add R] [Sub R] [Neg R] [Mul R] [Div R] [DecidableEq R] in
theorem prodsOf_append (S T : List (Int × R)) (g : Nat → R) :
    prodsOf (S ++ T) g = prodsOf S g + prodsOf T g := by
  simp [prodsOf]

/-- `v` is the value of a difference `p.1 * p.2 - …` with the products `M`, of size at most `n` -/
def DTree (F : SolveFpu R) (p : R × R) (M : Multiset (R × R)) (n : Nat) (v : R) : Prop :=
  ∃ t : DiffTree R, t.from' = p ∧ t.leaves = M ∧ t.size ≤ n ∧ v = t.eval F

variable {F : SolveFpu R} {p : R × R} {M : Multiset (R × R)} {n : Nat} {v : R}

theorem DTree.start (F : SolveFpu R) (al b : R) : DTree F (al, b) 0 1 (al * b) :=
  ⟨.start al b, rfl, rfl, le_rfl, rfl⟩

theorem DTree.mono (h : DTree F p M n v) {k : Nat} (hk : n ≤ k) : DTree F p M k v := by
  obtain ⟨t, h1, h2, h3, h4⟩ := h
  exact ⟨t, h1, h2, h3.trans hk, h4⟩

theorem DTree.sub (h : DTree F p M n v) (a x : R) :
    DTree F p ((a, x) ::ₘ M) (n + 1) (F.msub a x v) := by
  obtain ⟨t, h1, h2, h3, rfl⟩ := h
  exact ⟨.sub a x t, h1, by rw [DiffTree.leaves, h2], by simp only [DiffTree.size]; omega, rfl⟩

theorem DTree.vsub (h : DTree F p M n v) (a x : R) :
    DTree F p ((a, x) ::ₘ M) (n + 1) (F.vmac a (-x) v) := by
  obtain ⟨t, h1, h2, h3, rfl⟩ := h
  exact ⟨.vsub a x t, h1, by rw [DiffTree.leaves, h2], by simp only [DiffTree.size]; omega, rfl⟩

theorem DTree.minus (h : DTree F p M n v) (s : SumTree R) :
    DTree F p (s.leaves + M) (n + s.depth + 1) (v - s.eval F.toFpu) := by
  obtain ⟨t, h1, h2, h3, rfl⟩ := h
  exact ⟨.minus t s, h1, by rw [DiffTree.leaves, h2], by simp only [DiffTree.size]; omega, rfl⟩

/-! ### row products -/

theorem subFp_seg (h : Seg icol a base lo hi S) (hx : SVec x0 x inc m g)
    (hr : ∀ e ∈ S, 0 ≤ e.1 ∧ e.1 < m) (hv : DTree F p M n v) :
    ∃ v', forC lo hi (trsvSubFp F base a icol inc x) v = some v' ∧
      DTree F p (prodsOf S g + M) (n + S.length) v' := by
  have := h.forC (σ := R) (fun c a xi => (rd x (c * inc - base * inc)).bind fun xc =>
    some (F.msub a xc xi)) v
  suffices hs : ∃ v', S.foldlM (fun xi e => (rd x ((e.1 + base) * inc - base * inc)).bind fun xc =>
      some (F.msub e.2 xc xi)) v = some v' ∧ DTree F p (prodsOf S g + M) (n + S.length) v' by
    obtain ⟨v', e1, e2⟩ := hs
    exact ⟨v', Eq.trans (Eq.trans rfl this) e1, e2⟩
  clear this h
  induction S generalizing v M n with
  | nil => exact ⟨v, rfl, by simpa [prodsOf] using hv⟩
  | cons e S ih =>
    have he := hr e (by simp)
    obtain ⟨v', e1, e2⟩ := ih (fun e he => hr e (by simp [he])) (hv.sub e.2 (g e.1.toNat))
    refine ⟨v', ?_, ?_⟩
    · rw [List.foldlM_cons, hx.rdc he.1 he.2 base]
      exact e1
    · rw [show prodsOf (e :: S) g + M = prodsOf S g + (e.2, g e.1.toNat) ::ₘ M by
        unfold prodsOf
        rw [List.map_cons, ← Multiset.cons_coe, Multiset.cons_add, Multiset.add_cons]]
      exact e2.mono (by simp; omega)

theorem lanesFp_seg (h : Seg icol a base lo hi S) (hx : SVec x0 x inc m g)
    (hr : ∀ e ∈ S, 0 ≤ e.1 ∧ e.1 < m) {q K : Nat} (hq : q + K ≤ S.length) :
    trsvLanes id K base a icol inc x (lo + q)
      = some (((S.drop q).take K).map fun e => (e.2, g e.1.toNat)) := by
  have : ((S.drop q).take K).map (fun e => (e.2, g e.1.toNat))
      = (List.range K).map fun l => ((S.getD (q + l) (0, 0)).2,
          g (S.getD (q + l) (0, 0)).1.toNat) := by
    apply List.ext_getElem
    · simp; omega
    · intro l h1 h2
      simp only [List.length_map, List.length_range] at h2
      have hlt : q + l < S.length := by omega
      simp [List.getElem?_eq_getElem hlt]
  rw [this]
  unfold trsvLanes
  apply mapM_range_some
  intro l hl
  have hlt : q + l < S.length := by omega
  obtain ⟨e1, e2⟩ := h.2 (q + l) hlt
  have hrr := hr _ (List.getElem_mem hlt)
  rw [show lo + (q : Int) + (l : Int) - base = lo - base + ((q + l : Nat) : Int) by push_cast; ring,
    e1, e2]
  have e3 := hx.rdc hrr.1 hrr.2 base
  simp [e3, List.getElem?_eq_getElem hlt]

omit [Zero R] [One R] [Add R] [Sub R] [Neg R] [Mul R] [Div R] [DecidableEq R] in
theorem seg_split' (h : Seg icol a base lo hi S) {K : Nat} (hK : 0 < K) :
    (hi - lo).tmod K = ((S.length % K : Nat) : Int) ∧
    hi - ((S.length % K : Nat) : Int) = lo + ((K * (S.length / K) : Nat) : Int) ∧
    Seg icol a base (lo + ((K * (S.length / K) : Nat) : Int)) hi (S.drop (K * (S.length / K))) := by
  have hlen : hi - lo = (S.length : Int) := by have := h.1; omega
  have hdm := Nat.div_add_mod S.length K
  refine ⟨?_, by omega, ?_⟩
  · rw [hlen, Int.tmod_eq_emod_of_nonneg (by omega)]; push_cast; rfl
  · have hS : S = S.take (K * (S.length / K)) ++ S.drop (K * (S.length / K)) :=
      (List.take_append_drop _ _).symm
    rw [hS] at h
    have := h.append_right
    rwa [List.length_take, Nat.min_eq_left (by omega)] at this

/-- the products of a row, and possibly one product of two zeros (a padded lane) -/
def RTree (F : SolveFpu R) (p : R × R) (S : List (Int × R)) (g : Nat → R) (c : Nat) (v : R) :
    Prop :=
  ∃ z ≤ 1, DTree F p (prodsOf S g + Multiset.replicate z (0, 0)) (S.length + c) v

/-- the blocked row product -/
theorem ktRowDotFp_tree {K l : Nat} (hK : 0 < K) {hs : List R → R} (hh : HsOk F.toFpu K l hs)
    (h : Seg icol a base lo hi S) (hx : SVec x0 x inc m g)
    (hr : ∀ e ∈ S, 0 ≤ e.1 ∧ e.1 < m) (al b : R) :
    ∃ v, ktRowDotFp F K hs base a icol inc x lo hi (al * b) = some v ∧
      RTree F (al, b) S g (2 * l + 6) v := by
  obtain ⟨hrem, hend, hsr⟩ := seg_split' h hK
  have hlen : hi - lo = (S.length : Int) := by have := h.1; omega
  have hdm := Nat.div_add_mod S.length K
  have hml := Nat.mod_lt S.length hK
  have hdl : S.length / K ≤ K * (S.length / K) := Nat.le_mul_of_pos_left _ hK
  obtain ⟨s, e1, ts, rfl, h3, h4, h5⟩ := forS_inv (lo := lo)
    (hi := lo + ((K * (S.length / K) : Nat) : Int))
    (K := K) (k := S.length / K) hK rfl
    (f := fun idx (s : List R) => do
      let L ← trsvLanes id K base a icol inc x idx
      some ((vecFp F.toFpu K hs).fma L s)) (s := List.replicate K 0)
    (P := fun k v => ∃ ts : List (SumTree R), v = ts.map (·.eval F.toFpu) ∧ ts.length = K ∧
      (ts.map (·.leaves)).sum = prodsOf (S.take (K * k)) g ∧ ∀ t ∈ ts, t.depth ≤ k + 1)
    ⟨List.replicate K .zero, by simp [SumTree.eval], by simp, by simp [SumTree.leaves, prodsOf],
      by intro t ht; rw [List.eq_of_mem_replicate ht]; simp [SumTree.depth]⟩ (by
      rintro k v hk ⟨ts, rfl, h3, h4, h5⟩
      have hle : K * (k + 1) ≤ K * (S.length / K) := Nat.mul_le_mul_left K hk
      rw [Nat.mul_succ] at hle
      have hq : K * k + K ≤ S.length := by omega
      have htake : S.take (K * (k + 1)) = S.take (K * k) ++ (S.drop (K * k)).take K := by
        rw [Nat.mul_succ, List.take_add]
      have hll : (((S.drop (K * k)).take K).map fun e => (e.2, g e.1.toNat)).length = ts.length := by
        simp; omega
      refine ⟨_, ?_, List.zipWith (fun ab t => SumTree.mac true ab.1 ab.2 t)
        (((S.drop (K * k)).take K).map fun e => (e.2, g e.1.toNat)) ts, rfl, ?_, ?_, ?_⟩
      · rw [lanesFp_seg h hx hr hq, ← zip_eval]
        rfl
      · rw [List.length_zipWith, hll, h3, Nat.min_self]
      · rw [zip_leaves _ _ hll, h4, htake, prodsOf_append, add_comm]
        rfl
      · exact zip_depth _ _ _ h5 (by omega))
  obtain ⟨t1, e2, h6, h7⟩ := hh ts _ h3 h5
  have hx1 : DTree F (al, b) (prodsOf (S.take (K * (S.length / K))) g)
      (S.length / K + l + 3)
      (if hi - lo - (K : Int) ≥ 0 then al * b - hs (ts.map (·.eval F.toFpu)) else al * b) := by
    split
    · rw [e2]
      have := (DTree.start F al b).minus t1
      rw [add_zero, h6, h4] at this
      exact this.mono (by omega)
    · have hz : S.length / K = 0 := Nat.div_eq_of_lt (by omega)
      rw [hz]
      simp only [Nat.mul_zero, List.take_zero]
      exact (DTree.start F al b).mono (by omega)
  have hS : S = S.take (K * (S.length / K)) ++ S.drop (K * (S.length / K)) :=
    (List.take_append_drop _ _).symm
  have hr' : ∀ e ∈ S.drop (K * (S.length / K)), 0 ≤ e.1 ∧ e.1 < (m : Int) :=
    fun e he => hr e (List.mem_of_mem_drop he)
  have hdl' : (S.drop (K * (S.length / K))).length = S.length % K := by
    rw [List.length_drop]; omega
  have hall : prodsOf (S.drop (K * (S.length / K))) g + prodsOf (S.take (K * (S.length / K))) g
      = prodsOf S g := by
    rw [add_comm, ← prodsOf_append, ← hS]
  unfold ktRowDotFp
  simp only [hrem, hend]
  rw [e1]
  simp only [Option.bind_eq_bind, Option.bind_some]
  split
  · next hc =>
    have hq : K * (S.length / K) + (K - 1) ≤ S.length := by omega
    rw [lanesFp_seg h hx hr hq, Option.bind_some]
    rw [List.take_of_length_le (l := S.drop (K * (S.length / K))) (by omega)]
    refine ⟨_, rfl, 1, le_rfl, ?_⟩
    have hl2 : ((S.drop (K * (S.length / K))).map (fun e => (e.2, g e.1.toNat))
        ++ [((0 : R), (0 : R))]).length = K := by
      rw [List.length_append, List.length_map, hdl']
      simp; omega
    obtain ⟨t2, f2, f6, f7⟩ := hh (List.zipWith (fun ab t => SumTree.mac true ab.1 ab.2 t)
      ((S.drop (K * (S.length / K))).map (fun e => (e.2, g e.1.toNat)) ++ [((0 : R), (0 : R))])
      (List.replicate K SumTree.zero)) 2 (by rw [List.length_zipWith, hl2, List.length_replicate,
        Nat.min_self])
      (zip_depth _ _ 1 (by intro t ht; rw [List.eq_of_mem_replicate ht]; simp [SumTree.depth])
        le_rfl)
    rw [zip_leaves _ _ (by rw [hl2, List.length_replicate])] at f6
    rw [← zip_eval] at f2
    have f3 : hs ((vecFp F.toFpu K hs).fma ((S.drop (K * (S.length / K))).map
        (fun e => (e.2, g e.1.toNat)) ++ [((0 : R), (0 : R))]) (List.replicate K 0))
        = t2.eval F.toFpu := by
      rw [← f2]
      show hs _ = hs _
      congr 1
      show List.zipWith _ _ _ = _
      rw [List.map_replicate]
      rfl
    rw [f3]
    have := hx1.minus t2
    rw [f6] at this
    have e : (((S.drop (K * (S.length / K))).map (fun e => (e.2, g e.1.toNat))
        ++ [((0 : R), (0 : R))] : List (R × R)) : Multiset (R × R))
        + ((List.replicate K (SumTree.zero : SumTree R)).map (·.leaves)).sum
        + prodsOf (S.take (K * (S.length / K))) g
        = prodsOf S g + Multiset.replicate 1 (0, 0) := by
      rw [← hall, List.map_replicate]
      simp only [SumTree.leaves, List.sum_replicate, smul_zero, add_zero]
      rw [← Multiset.coe_add]
      unfold prodsOf
      rw [show (([((0 : R), (0 : R))] : List (R × R)) : Multiset (R × R))
        = Multiset.replicate 1 (0, 0) from rfl]
      abel
    rw [e] at this
    exact this.mono (by omega)
  · obtain ⟨v', e3, h8⟩ := subFp_seg hsr hx hr' hx1
    refine ⟨v', e3, 0, by omega, ?_⟩
    rw [hall] at h8
    rw [Multiset.replicate_zero, add_zero]
    exact h8.mono (by omega)

/-! ### propagation of a solved component -/

/-- `v` is `c - a * y`, computed in one of the two ways -/
def Sub1 (F : SolveFpu R) (a y c v : R) : Prop := v = F.msub a y c ∨ v = F.vmac a (-y) c

/-- `y` times the entries `S` subtracted one after the other -/
inductive PropR (F : SolveFpu R) (y : R) : List (Int × R) → (Nat → R) → (Nat → R) → Prop
  | nil (g : Nat → R) : PropR F y [] g g
  | cons {e : Int × R} {S : List (Int × R)} {g g' : Nat → R} {v : R} (h : Sub1 F e.2 y (g e.1.toNat) v)
      (hs : PropR F y S (Function.update g e.1.toNat v) g') : PropR F y (e :: S) g g'

theorem PropR.append {y : R} {S T : List (Int × R)} {g g' g'' : Nat → R} (h : PropR F y S g g')
    (h' : PropR F y T g' g'') : PropR F y (S ++ T) g g'' := by
  induction h with
  | nil => exact h'
  | cons h _ ih => exact .cons h (ih h')

theorem PropR.single {y : R} {e : Int × R} {g : Nat → R} {v : R}
    (h : Sub1 F e.2 y (g e.1.toNat) v) : PropR F y [e] g (Function.update g e.1.toNat v) :=
  .cons h (.nil _)

theorem PropR.other {y : R} {S : List (Int × R)} {g g' : Nat → R} (h : PropR F y S g g') {j : Nat}
    (hj : ∀ e ∈ S, e.1.toNat ≠ j) : g' j = g j := by
  induction h with
  | nil => rfl
  | cons h _ ih =>
    rw [ih (fun e he => hj e (by simp [he])), Function.update_of_ne (hj _ (by simp)).symm]

/-- the entries in column `j` -/
def inCol (S : List (Int × R)) (j : Nat) : List (Int × R) := S.filter fun e => e.1 = (j : Int)

theorem PropR.tree {y : R} {S : List (Int × R)} {g g' : Nat → R} (h : PropR F y S g g')
    (h0 : ∀ e ∈ S, 0 ≤ e.1) (j : Nat) {M : Multiset (R × R)} {n : Nat} (hg : DTree F p M n (g j)) :
    DTree F p (((inCol S j).map (fun e => (e.2, y)) : List (R × R)) + M) (n + (inCol S j).length)
      (g' j) := by
  induction h generalizing M n with
  | nil => simpa [inCol] using hg
  | @cons e S g g' v hv _ ih =>
    have he := h0 e (by simp)
    by_cases hj : e.1 = (j : Int)
    · have hjn : e.1.toNat = j := by omega
      have hv' : DTree F p ((e.2, y) ::ₘ M) (n + 1) v := by
        rw [hjn] at hv
        rcases hv with rfl | rfl
        · exact hg.sub _ _
        · exact hg.vsub _ _
      have := ih (fun e he => h0 e (by simp [he])) (M := (e.2, y) ::ₘ M) (n := n + 1)
        (by rw [hjn, Function.update_self]; exact hv')
      have e1 : inCol (e :: S) j = e :: inCol S j := by simp [inCol, hj]
      rw [e1, List.map_cons, ← Multiset.cons_coe, Multiset.cons_add, ← Multiset.add_cons]
      exact this.mono (by simp; omega)
    · have e1 : inCol (e :: S) j = inCol S j := by simp [inCol, hj]
      rw [e1]
      exact ih (fun e he => h0 e (by simp [he]))
        (by rw [Function.update_of_ne (by omega)]; exact hg)

theorem refPropFp_seg (h : Seg icol a base lo hi S) (hinc : 0 < inc)
    (hx : SVec x0 x inc m g) (hr : ∀ e ∈ S, 0 ≤ e.1 ∧ e.1 < m) {i : Nat} (him : i < m)
    (hi' : ∀ e ∈ S, e.1 ≠ (i : Int)) :
    ∃ x' g', forC lo hi (refPropFp F base a icol inc i) x = some x' ∧
      SVec x0 x' inc m g' ∧ PropR F (g i) S g g' := by
  have := h.forC (σ := List R) (fun c v x => (rd x (c * inc - base * inc)).bind fun xc =>
    (rd x (i * inc)).bind fun xi => wr x (c * inc - base * inc) (F.msub v xi xc)) x
  suffices hs : ∃ x' g', S.foldlM (fun x e => (rd x ((e.1 + base) * inc - base * inc)).bind fun xc =>
      (rd x ((i : Int) * inc)).bind fun xi =>
        wr x ((e.1 + base) * inc - base * inc) (F.msub e.2 xi xc)) x = some x' ∧
      SVec x0 x' inc m g' ∧ PropR F (g i) S g g' by
    obtain ⟨x', g', e1, e2⟩ := hs
    exact ⟨x', g', Eq.trans (Eq.trans rfl this) e1, e2⟩
  clear this h
  induction S generalizing x g with
  | nil => exact ⟨x, g, rfl, hx, .nil _⟩
  | cons e S ih =>
    have he := hr e (by simp)
    obtain ⟨x1, e1, h1⟩ := hx.wrc hinc he.1 he.2 base (F.msub e.2 (g i) (g e.1.toNat))
    obtain ⟨x2, g2, e2, h2, h3⟩ := ih h1 (fun e he => hr e (by simp [he]))
      (fun e he => hi' e (by simp [he]))
    have hne : i ≠ e.1.toNat := by
      have := hi' e (by simp); omega
    rw [Function.update_of_ne hne] at h3
    refine ⟨x2, g2, ?_, h2, .cons (Or.inl rfl) h3⟩
    rw [List.foldlM_cons, hx.rdc he.1 he.2 base, hx.rd him]
    simp only [Option.bind_eq_bind, Option.bind_some, e1]
    exact e2

theorem ktProp1Fp_seg (h : Seg icol a base lo hi S) (hinc : 0 < inc)
    (hx : SVec x0 x inc m g) (hr : ∀ e ∈ S, 0 ≤ e.1 ∧ e.1 < m) (y : R) :
    ∃ x' g', forC lo hi (ktProp1Fp F base a icol inc y) x = some x' ∧
      SVec x0 x' inc m g' ∧ PropR F y S g g' := by
  have := h.forC (σ := List R) (fun c v x => (rd x (c * inc - base * inc)).bind fun xc =>
    wr x (c * inc - base * inc) (F.msub v y xc)) x
  suffices hs : ∃ x' g', S.foldlM (fun x e => (rd x ((e.1 + base) * inc - base * inc)).bind fun xc =>
        wr x ((e.1 + base) * inc - base * inc) (F.msub e.2 y xc)) x = some x' ∧
      SVec x0 x' inc m g' ∧ PropR F y S g g' by
    obtain ⟨x', g', e1, e2⟩ := hs
    exact ⟨x', g', Eq.trans (Eq.trans rfl this) e1, e2⟩
  clear this h
  induction S generalizing x g with
  | nil => exact ⟨x, g, rfl, hx, .nil _⟩
  | cons e S ih =>
    have he := hr e (by simp)
    obtain ⟨x1, e1, h1⟩ := hx.wrc hinc he.1 he.2 base (F.msub e.2 y (g e.1.toNat))
    obtain ⟨x2, g2, e2, h2, h3⟩ := ih h1 (fun e he => hr e (by simp [he]))
    refine ⟨x2, g2, ?_, h2, .cons (Or.inl rfl) h3⟩
    rw [List.foldlM_cons, hx.rdc he.1 he.2 base]
    simp only [Option.bind_eq_bind, Option.bind_some, e1]
    exact e2

/-- gather, update and scatter of `K` distinct entries -/
theorem ktScatFp_seg (h : Seg icol a base lo hi S) (hinc : 0 < inc)
    (hx : SVec x0 x inc m g) (hr : ∀ e ∈ S, 0 ≤ e.1 ∧ e.1 < m) (hnd : (S.map (·.1)).Nodup)
    {q K : Nat} (hq : q + K ≤ S.length) (y : R) :
    ∃ x' g', ktScatFp F K base a icol inc (-y) (lo + q) x = some x' ∧
      SVec x0 x' inc m g' ∧ PropR F y ((S.drop q).take K) g g' := by
  unfold ktScatFp
  rw [lanesFp_seg h hx hr hq]
  simp only [Option.bind_eq_bind, Option.bind_some, List.map_map, Function.comp_def]
  have hlen : ((S.drop q).take K).length = K := by simp; omega
  obtain ⟨x', e, g', hp, hg⟩ := forC_inv_nat (n := K) (s := x)
    (f := fun l x => (rd icol (lo + (q : Int) + l - base)).bind fun c =>
      (rd (((S.drop q).take K).map fun e => F.vmac e.2 (-y) (g e.1.toNat)) l).bind fun w =>
        wr x (c * inc - base * inc) w)
    (P := fun l x => ∃ g', SVec x0 x inc m g' ∧ PropR F y (((S.drop q).take K).take l) g g')
    ⟨g, hx, by rw [List.take_zero]; exact .nil _⟩ (by
      rintro l x hl ⟨g', hp, hg⟩
      have hlt : q + l < S.length := by omega
      have hlt' : l < ((S.drop q).take K).length := by omega
      have hgl : ((S.drop q).take K)[l] = S[q + l] := by simp
      obtain ⟨e1, _⟩ := h.2 (q + l) hlt
      have hrr := hr _ (List.getElem_mem hlt)
      obtain ⟨x', e2, h2⟩ := hp.wrc hinc hrr.1 hrr.2 base
        (F.vmac S[q + l].2 (-y) (g S[q + l].1.toNat))
      have hab : g' S[q + l].1.toNat = g S[q + l].1.toNat := by
        apply hg.other
        intro e he hee
        have her := hr e (List.mem_of_mem_drop (List.mem_of_mem_take (List.mem_of_mem_take he)))
        obtain ⟨t, ht, rfl⟩ := List.mem_iff_getElem.mp he
        simp only [List.length_take, List.length_drop] at ht
        have hgt : (((S.drop q).take K).take l)[t] = S[q + t] := by simp
        rw [hgt] at hee her
        have hee' : S[q + t].1 = S[q + l].1 := by omega
        have := (List.nodup_iff_injective_getElem.mp hnd)
          (a₁ := ⟨q + t, by simp; omega⟩) (a₂ := ⟨q + l, by simp; omega⟩) (by simpa using hee')
        simp only [Fin.mk.injEq] at this
        omega
      refine ⟨x', ?_, _, h2, ?_⟩
      · rw [show lo + (q : Int) + (l : Int) - base = lo - base + ((q + l : Nat) : Int)
          by push_cast; ring, e1, rd_ofNat, List.getElem?_map, List.getElem?_eq_getElem hlt']
        simp only [hgl, Option.map_some, Option.bind_some]
        exact e2
      · rw [List.take_succ, List.getElem?_eq_getElem hlt', hgl]
        refine hg.append (PropR.single (Or.inr ?_))
        rw [hab])
  rw [List.take_of_length_le (by omega)] at hg
  exact ⟨x', g', e, hp, hg⟩

theorem ktRowScatFp_spec {K : Nat} (hK : 0 < K) (h : Seg icol a base lo hi S)
    (hinc : 0 < inc) (hx : SVec x0 x inc m g) (hr : ∀ e ∈ S, 0 ≤ e.1 ∧ e.1 < m)
    (hnd : (S.map (·.1)).Nodup) (y : R) :
    ∃ x' g', ktRowScatFp F K base a icol inc lo hi y x = some x' ∧
      SVec x0 x' inc m g' ∧ PropR F y S g g' := by
  obtain ⟨hrem, hend, hsr⟩ := seg_split' h hK
  have hdm := Nat.div_add_mod S.length K
  have hml := Nat.mod_lt S.length hK
  obtain ⟨x1, e1, g1, h1, p1⟩ := forS_inv (lo := lo) (hi := lo + ((K * (S.length / K) : Nat) : Int))
    (K := K) (k := S.length / K) hK rfl
    (f := ktScatFp F K base a icol inc (-y)) (s := x)
    (P := fun k x => ∃ g', SVec x0 x inc m g' ∧ PropR F y (S.take (K * k)) g g')
    ⟨g, hx, by rw [Nat.mul_zero, List.take_zero]; exact .nil _⟩ (by
      rintro k x hk ⟨g', hp, hg⟩
      have hle : K * (k + 1) ≤ K * (S.length / K) := Nat.mul_le_mul_left K hk
      rw [Nat.mul_succ] at hle
      have hq : K * k + K ≤ S.length := by omega
      have htake : S.take (K * (k + 1)) = S.take (K * k) ++ (S.drop (K * k)).take K := by
        rw [Nat.mul_succ, List.take_add]
      obtain ⟨x', g'', e, h2, h3⟩ := ktScatFp_seg h hinc hp hr hnd hq y
      refine ⟨x', e, g'', h2, ?_⟩
      rw [htake]
      exact hg.append h3)
  have hS : S = S.take (K * (S.length / K)) ++ S.drop (K * (S.length / K)) :=
    (List.take_append_drop _ _).symm
  unfold ktRowScatFp
  simp only [hrem, hend]
  rw [e1]
  simp only [Option.bind_eq_bind, Option.bind_some]
  split
  · next hc =>
    have hq : K * (S.length / K) + (K - 1) ≤ S.length := by omega
    obtain ⟨x2, g2, e2, h2, p2⟩ := ktScatFp_seg (F := F) h hinc h1 hr hnd hq y
    refine ⟨x2, g2, e2, h2, ?_⟩
    rw [List.take_of_length_le (by rw [List.length_drop]; omega)] at p2
    rw [hS]
    exact p1.append p2
  · obtain ⟨x2, g2, e2, h2, p2⟩ := ktProp1Fp_seg (F := F) hsr hinc h1
      (fun e he => hr e (List.mem_of_mem_drop he)) y
    refine ⟨x2, g2, e2, h2, ?_⟩
    rw [hS]
    exact p1.append p2

/-! ### elimination -/

/-- what a component is after its division -/
def divBy (unit : Bool) (d v : R) : R := if unit then v else v / d

/-- the rows in `P` are solved -/
def RowsFp (F : SolveFpu R) (al : R) (b d : Nat → R) (unit : Bool) (S : Nat → List (Int × R))
    (c : Nat) (P : Finset Nat) (g : Nat → R) : Prop :=
  ∀ k ∈ P, ∃ v, RTree F (al, b k) (S k) g c v ∧ g k = divBy unit (d k) v

omit [Zero R] [One R] [Add R] [Sub R] [Neg R] [Mul R] [Div R] [DecidableEq R] in
theorem prodsOf_update {S : List (Int × R)} {i : Nat} (h : ∀ e ∈ S, e.1.toNat ≠ i) (g : Nat → R)
    (v : R) : prodsOf S (Function.update g i v) = prodsOf S g := by
  unfold prodsOf
  congr 1
  apply List.map_congr_left
  intro e he
  rw [Function.update_of_ne (h e he)]

variable {al : R} {b d : Nat → R} {unit : Bool} {Sf : Nat → List (Int × R)} {c : Nat}

theorem RowsFp.step {P : Finset Nat} (h : RowsFp F al b d unit Sf c P g) {i : Nat} (hiP : i ∉ P)
    (hii : ∀ e ∈ Sf i, e.1.toNat ≠ i) (hPi : ∀ k ∈ P, ∀ e ∈ Sf k, e.1.toNat ≠ i) {v : R}
    (hv : RTree F (al, b i) (Sf i) g c v) :
    RowsFp F al b d unit Sf c (insert i P) (Function.update g i (divBy unit (d i) v)) := by
  intro k hk
  rcases mem_insert.mp hk with rfl | hk
  · refine ⟨v, ?_, by rw [Function.update_self]⟩
    unfold RTree
    rw [prodsOf_update hii]
    exact hv
  · obtain ⟨w, h1, h2⟩ := h k hk
    refine ⟨w, ?_, ?_⟩
    · unfold RTree
      rw [prodsOf_update (hPi k hk)]
      exact h1
    · rw [Function.update_of_ne (show k ≠ i from fun e => hiP (e ▸ hk)), h2]

/-- one step of a row-oriented kernel -/
def RowStepFp (F : SolveFpu R) (al : R) (b d : Nat → R) (unit : Bool) (S : Nat → List (Int × R))
    (c : Nat) (x0 : List R) (inc m : Nat) (body : Int → List R → Option (List R)) : Prop :=
  ∀ i, i < m → ∀ x g, SVec x0 x inc m g → ∃ x' v, body (i : Int) x = some x' ∧
    SVec x0 x' inc m (Function.update g i (divBy unit (d i) v)) ∧ RTree F (al, b i) (S i) g c v

theorem rowsFp_fwd {body : Int → List R → Option (List R)} (hx : SVec x0 x inc m g)
    (hb : RowStepFp F al b d unit Sf c x0 inc m body)
    (hS : ∀ i, i < m → ∀ e ∈ Sf i, e.1.toNat < i) :
    ∃ x' g', forC 0 (m : Int) body x = some x' ∧ SVec x0 x' inc m g' ∧
      RowsFp F al b d unit Sf c (range m) g' := by
  obtain ⟨x', e, g', h1, h2⟩ := forC_inv_nat (n := m) (f := body) (s := x)
    (P := fun i x => ∃ g, SVec x0 x inc m g ∧ RowsFp F al b d unit Sf c (range i) g)
    ⟨g, hx, by simp [RowsFp]⟩ (by
      rintro i x hi ⟨g, h1, h2⟩
      obtain ⟨x', v, e, h3, h4⟩ := hb i hi x g h1
      refine ⟨x', e, _, h3, ?_⟩
      rw [range_add_one]
      refine h2.step (by simp) (fun e he => ?_) (fun k hk e he => ?_) h4
      · have := hS i hi e he; omega
      · have hk := mem_range.mp hk
        have := hS k (by omega) e he; omega)
  exact ⟨x', g', e, h1, h2⟩

theorem rowsFp_bwd {body : Int → List R → Option (List R)} (hx : SVec x0 x inc m g)
    (hb : RowStepFp F al b d unit Sf c x0 inc m body)
    (hS : ∀ i, i < m → ∀ e ∈ Sf i, i < e.1.toNat) :
    ∃ x' g', forD ((m : Int) - 1) 0 body x = some x' ∧ SVec x0 x' inc m g' ∧
      RowsFp F al b d unit Sf c (range m) g' := by
  obtain ⟨x', e, g', h1, h2⟩ := forD_inv_nat (m := m) (f := body) (s := x)
    (P := fun i x => ∃ g, SVec x0 x inc m g ∧ RowsFp F al b d unit Sf c (fromTo i m) g)
    ⟨g, hx, by simp [RowsFp, fromTo_top]⟩ (by
      rintro i x hi ⟨g, h1, h2⟩
      obtain ⟨x', v, e, h3, h4⟩ := hb i hi x g h1
      refine ⟨x', e, _, h3, ?_⟩
      rw [fromTo_succ hi]
      refine h2.step (by simp [mem_fromTo]) (fun e he => ?_) (fun k hk e he => ?_) h4
      · have := hS i hi e he; omega
      · have hk := mem_fromTo.mp hk
        have := hS k hk.1 e he; omega)
  rw [fromTo_zero] at h2
  exact ⟨x', g', e, h1, h2⟩

/-- the columns in `P` are eliminated -/
def ColsFp (F : SolveFpu R) (al : R) (b d : Nat → R) (unit : Bool) (S : Nat → List (Int × R))
    (m : Nat) (P : Finset Nat) (g : Nat → R) : Prop :=
  ∀ j, j < m → ∃ v, DTree F (al, b j)
      (∑ k ∈ P, (((inCol (S k) j).map fun e => (e.2, g k) : List (R × R)) : Multiset (R × R)))
      (1 + ∑ k ∈ P, (inCol (S k) j).length) v ∧
    g j = if j ∈ P then divBy unit (d j) v else v

theorem ColsFp.step {P : Finset Nat} (h : ColsFp F al b d unit Sf m P g) {i : Nat} (him : i < m)
    (hiP : i ∉ P) (h0 : ∀ e ∈ Sf i, 0 ≤ e.1) (hii : ∀ e ∈ Sf i, e.1.toNat ≠ i)
    (hPi : ∀ k ∈ P, ∀ e ∈ Sf i, e.1.toNat ≠ k) {g' : Nat → R}
    (hp : PropR F (divBy unit (d i) (g i)) (Sf i)
      (Function.update g i (divBy unit (d i) (g i))) g') :
    ColsFp F al b d unit Sf m (insert i P) g' := by
  have hgi : g' i = divBy unit (d i) (g i) := by
    rw [hp.other hii, Function.update_self]
  have hgk : ∀ k ∈ P, g' k = g k := by
    intro k hk
    rw [hp.other (hPi k hk), Function.update_of_ne (show k ≠ i from fun e => hiP (e ▸ hk))]
  intro j hj
  obtain ⟨v, h1, h2⟩ := h j hj
  rw [sum_insert hiP, sum_insert hiP, hgi, sum_congr rfl (fun k hk => by rw [hgk k hk])]
  have hnone : (∀ e ∈ Sf i, e.1.toNat ≠ j) → inCol (Sf i) j = [] := by
    intro hne
    rw [inCol, List.filter_eq_nil_iff]
    intro e he hc
    have := hne e he
    simp only [decide_eq_true_eq] at hc
    omega
  by_cases hji : j = i
  · subst hji
    rw [if_neg hiP] at h2
    refine ⟨v, ?_, by rw [if_pos (mem_insert_self _ _), hgi, h2]⟩
    rw [hnone hii]
    simpa using h1
  · by_cases hjP : j ∈ P
    · rw [if_pos hjP] at h2
      refine ⟨v, ?_, by rw [if_pos (mem_insert_of_mem hjP), hgk j hjP, h2]⟩
      rw [hnone (hPi j hjP)]
      simpa using h1
    · rw [if_neg hjP] at h2
      refine ⟨g' j, ?_, by rw [if_neg (by simp [hji, hjP])]⟩
      have := hp.tree (p := (al, b j)) h0 j (M := _) (n := _)
        (by rw [Function.update_of_ne hji, h2]; exact h1)
      exact this.mono (by omega)

/-- one step of a column-oriented kernel -/
def ColStepFp (F : SolveFpu R) (d : Nat → R) (unit : Bool) (S : Nat → List (Int × R))
    (x0 : List R) (inc m : Nat) (body : Int → List R → Option (List R)) : Prop :=
  ∀ i, i < m → ∀ x g, SVec x0 x inc m g → ∃ x' g', body (i : Int) x = some x' ∧
    SVec x0 x' inc m g' ∧ PropR F (divBy unit (d i) (g i)) (S i)
      (Function.update g i (divBy unit (d i) (g i))) g'

theorem colsFp_start : ColsFp F al b d unit Sf m ∅ (fun i => al * b i) := by
  intro j _
  exact ⟨al * b j, by simpa using DTree.start F al (b j), by simp⟩

theorem colsFp_fwd {body : Int → List R → Option (List R)}
    (hx : SVec x0 x inc m (fun i => al * b i))
    (hb : ColStepFp F d unit Sf x0 inc m body)
    (hS : ∀ i, i < m → ∀ e ∈ Sf i, 0 ≤ e.1 ∧ i < e.1.toNat) :
    ∃ x' g', forC 0 (m : Int) body x = some x' ∧ SVec x0 x' inc m g' ∧
      ColsFp F al b d unit Sf m (range m) g' := by
  obtain ⟨x', e, g', h1, h2⟩ := forC_inv_nat (n := m) (f := body) (s := x)
    (P := fun i x => ∃ g', SVec x0 x inc m g' ∧ ColsFp F al b d unit Sf m (range i) g')
    ⟨_, hx, by rw [range_zero]; exact colsFp_start⟩ (by
      rintro i x hi ⟨g, h1, h2⟩
      obtain ⟨x', g', e, h3, h4⟩ := hb i hi x g h1
      refine ⟨x', e, _, h3, ?_⟩
      rw [range_add_one]
      refine h2.step hi (by simp) (fun e he => (hS i hi e he).1) (fun e he => ?_)
        (fun k hk e he => ?_) h4
      · have := (hS i hi e he).2; omega
      · have hk := mem_range.mp hk
        have := (hS i hi e he).2; omega)
  exact ⟨x', g', e, h1, h2⟩

theorem colsFp_bwd {body : Int → List R → Option (List R)}
    (hx : SVec x0 x inc m (fun i => al * b i))
    (hb : ColStepFp F d unit Sf x0 inc m body)
    (hS : ∀ i, i < m → ∀ e ∈ Sf i, 0 ≤ e.1 ∧ e.1.toNat < i) :
    ∃ x' g', forD ((m : Int) - 1) 0 body x = some x' ∧ SVec x0 x' inc m g' ∧
      ColsFp F al b d unit Sf m (range m) g' := by
  obtain ⟨x', e, g', h1, h2⟩ := forD_inv_nat (m := m) (f := body) (s := x)
    (P := fun i x => ∃ g', SVec x0 x inc m g' ∧ ColsFp F al b d unit Sf m (fromTo i m) g')
    ⟨_, hx, by rw [fromTo_top]; exact colsFp_start⟩ (by
      rintro i x hi ⟨g, h1, h2⟩
      obtain ⟨x', g', e, h3, h4⟩ := hb i hi x g h1
      refine ⟨x', e, _, h3, ?_⟩
      rw [fromTo_succ hi]
      refine h2.step hi (by simp [mem_fromTo]) (fun e he => (hS i hi e he).1) (fun e he => ?_)
        (fun k hk e he => ?_) h4
      · have := (hS i hi e he).2; omega
      · have hk := mem_fromTo.mp hk
        have := (hS i hi e he).2; omega)
  rw [fromTo_zero] at h2
  exact ⟨x', g', e, h1, h2⟩

/-- row `j` of the transpose of the rows `S 0, …, S (m-1)` -/
def colRow (S : Nat → List (Int × R)) (m j : Nat) : List (Int × R) :=
  (List.range m).flatMap fun k => (inCol (S k) j).map fun e => ((k : Int), e.2)

omit [Zero R] [One R] [Add R] [Sub R] [Neg R] [Mul R] [Div R] [DecidableEq R] in
theorem colRow_prods (S : Nat → List (Int × R)) (m j : Nat) (g : Nat → R) :
    prodsOf (colRow S m j) g = ∑ k ∈ range m,
      (((inCol (S k) j).map fun e => (e.2, g k) : List (R × R)) : Multiset (R × R)) := by
  induction m with
  | zero => simp [colRow, prodsOf]
  | succ m ih =>
    rw [sum_range_succ, ← ih]
    unfold colRow
    rw [List.range_succ, List.flatMap_append, prodsOf_append]
    congr 1
    simp [prodsOf, Function.comp_def]

omit [Zero R] [One R] [Add R] [Sub R] [Neg R] [Mul R] [Div R] [DecidableEq R] in
theorem colRow_length (S : Nat → List (Int × R)) (m j : Nat) :
    (colRow S m j).length = ∑ k ∈ range m, (inCol (S k) j).length := by
  induction m with
  | zero => simp [colRow]
  | succ m ih =>
    rw [sum_range_succ, ← ih]
    unfold colRow
    rw [List.range_succ, List.flatMap_append]
    simp

/-- eliminated columns: every row of the transpose is solved -/
theorem ColsFp.rows (h : ColsFp F al b d unit Sf m (range m) g) :
    RowsFp F al b d unit (colRow Sf m) 1 (range m) g := by
  intro j hj
  obtain ⟨v, h1, h2⟩ := h j (mem_range.mp hj)
  rw [if_pos hj] at h2
  refine ⟨v, ⟨0, by omega, ?_⟩, h2⟩
  rw [colRow_prods, colRow_length, Multiset.replicate_zero, add_zero]
  exact h1.mono (by omega)

end Verif
