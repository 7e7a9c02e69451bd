/-
Every kernel adds up the products of a row, each exactly once, in some order.
No property of the arithmetic is used.
-/
import Verif.Model.Rounded
import Verif.Proofs.Seg
import Mathlib.Tactic.Abel

namespace Verif
open Model

variable {R : Type} [Zero R] [One R] [Add R] [Mul R] [DecidableEq R]

/-- the horizontal sum `hs` of `K` lanes is a sum in some order, of `d` levels -/
def HsOk (F : Fpu R) (K d : Nat) (hs : List R → R) : Prop :=
  ∀ (ts : List (SumTree R)) (k : Nat), ts.length = K → (∀ t ∈ ts, t.depth ≤ k) →
    ∃ t : SumTree R, hs (ts.map (·.eval F)) = t.eval F ∧ t.leaves = (ts.map (·.leaves)).sum ∧
      t.depth ≤ k + d

theorem list4 {α : Type} {l : List α} (h : l.length = 4) : ∃ a b c d, l = [a, b, c, d] := by
  match l, h with
  | [a, b, c, d], _ => exact ⟨a, b, c, d, rfl⟩

theorem list8 {α : Type} {l : List α} (h : l.length = 8) :
    ∃ a b c d e f g i, l = [a, b, c, d, e, f, g, i] := by
  match l, h with
  | [a, b, c, d, e, f, g, i], _ => exact ⟨a, b, c, d, e, f, g, i, rfl⟩

theorem hsum4l_ok (F : Fpu R) : HsOk F 4 2 hsum4l := by
  intro ts k h hd
  obtain ⟨a, b, c, d, rfl⟩ := list4 h
  refine ⟨.add (.add a b) (.add c d), rfl, ?_, ?_⟩
  · simp only [SumTree.leaves, List.map_cons, List.map_nil, List.sum_cons, List.sum_nil]
    abel
  · simp only [List.mem_cons, List.not_mem_nil, or_false, forall_eq_or_imp, forall_eq] at hd
    simp only [SumTree.depth]
    omega

theorem hsum8f_ok (F : Fpu R) : HsOk F 8 3 hsum8f := by
  intro ts k h hd
  obtain ⟨x0, x1, x2, x3, x4, x5, x6, x7, rfl⟩ := list8 h
  refine ⟨.add (.add (.add x0 x4) (.add x2 x6)) (.add (.add x1 x5) (.add x3 x7)), rfl, ?_, ?_⟩
  · simp only [SumTree.leaves, List.map_cons, List.map_nil, List.sum_cons, List.sum_nil]
    abel
  · simp only [List.mem_cons, List.not_mem_nil, or_false, forall_eq_or_imp, forall_eq] at hd
    simp only [SumTree.depth]
    omega

theorem hsum8d_ok (F : Fpu R) : HsOk F 8 3 hsum8d := by
  intro ts k h hd
  obtain ⟨x0, x1, x2, x3, x4, x5, x6, x7, rfl⟩ := list8 h
  refine ⟨.add (.add (.add x0 x4) (.add x1 x5)) (.add (.add x2 x6) (.add x3 x7)), rfl, ?_, ?_⟩
  · simp only [SumTree.leaves, List.map_cons, List.map_nil, List.sum_cons, List.sum_nil]
    abel
  · simp only [List.mem_cons, List.not_mem_nil, or_false, forall_eq_or_imp, forall_eq] at hd
    simp only [SumTree.depth]
    omega

theorem hsum8k_ok (F : Fpu R) : HsOk F 8 3 hsum8k := by
  intro ts k h hd
  obtain ⟨x0, x1, x2, x3, x4, x5, x6, x7, rfl⟩ := list8 h
  refine ⟨.add (.add (.add x0 x1) (.add x2 x3)) (.add (.add x4 x5) (.add x6 x7)), rfl, ?_, ?_⟩
  · simp only [SumTree.leaves, List.map_cons, List.map_nil, List.sum_cons, List.sum_nil]
    abel
  · simp only [List.mem_cons, List.not_mem_nil, or_false, forall_eq_or_imp, forall_eq] at hd
    simp only [SumTree.depth]
    omega

/-- the first `n` pairs -/
def pairs (f : Nat → R × R) (n : Nat) : Multiset (R × R) := ((List.range n).map f : List _)

theorem pairs_succ (f : Nat → R × R) (n : Nat) : pairs f (n + 1) = f n ::ₘ pairs f n := by
  unfold pairs
  rw [List.range_succ, List.map_append, ← Multiset.coe_add, add_comm]
  rfl

theorem pairs_add (f : Nat → R × R) (n k : Nat) :
    pairs f (n + k) = pairs f n + pairs (fun t => f (n + t)) k := by
  unfold pairs
  rw [List.range_add, List.map_append, ← Multiset.coe_add, List.map_map]
  rfl

/-- the scalar loop -/
theorem dotSeqFp_tree (F : Fpu R) {ind : List Int} {val x : List R} {base lo hi : Int} {n : Nat}
    {f : Nat → R × R} (hhi : hi = lo + n)
    (h : ∀ t : Nat, t < n → pairAt ind val x base (lo - base + t) = some (f t)) (t0 : SumTree R) :
    ∃ t : SumTree R, dotSeqFp F ind val x base lo hi (t0.eval F) = some (t.eval F) ∧
      t.leaves = t0.leaves + pairs f n ∧ t.depth ≤ max 1 t0.depth + n := by
  obtain ⟨s, h1, k, h2, t, h3, h4, h5⟩ := forC_inv (lo := lo) (hi := hi)
    (f := fun j r => (pairAt ind val x base (j - base)).bind fun t => some (F.smac t.1 t.2 r))
    (s := t0.eval F)
    (P := fun j r => ∃ k : Nat, j = lo + k ∧ ∃ t : SumTree R, r = t.eval F ∧
      t.leaves = t0.leaves + pairs f k ∧ t.depth ≤ max 1 t0.depth + k)
    (by omega) ⟨0, by simp, t0, rfl, by simp [pairs], by omega⟩ (by
      rintro j r h1 h2 ⟨k, rfl, t, rfl, h4, h5⟩
      refine ⟨(SumTree.mac false (f k).1 (f k).2 t).eval F, ?_, k + 1, by push_cast; ring, _, rfl,
        ?_, ?_⟩
      · rw [show lo + (k : Int) - base = lo - base + k by ring, h k (by omega)]
        rfl
      · simp only [SumTree.leaves]
        rw [h4, pairs_succ, Multiset.add_cons]
      · simp only [SumTree.depth]
        omega)
  have : k = n := by omega
  subst this
  exact ⟨t, by rw [← h3]; exact h1, h4, h5⟩

theorem zip_eval (F : Fpu R) (L : List (R × R)) (ts : List (SumTree R)) :
    List.zipWith (fun ab c => F.vmac ab.1 ab.2 c) L (ts.map (·.eval F))
      = (List.zipWith (fun ab t => SumTree.mac true ab.1 ab.2 t) L ts).map (·.eval F) := by
  induction L generalizing ts with
  | nil => rfl
  | cons a L ih =>
    cases ts with
    | nil => rfl
    | cons t ts =>
      simp only [List.map_cons, List.zipWith_cons_cons, ih]
      rfl

theorem zip_leaves (L : List (R × R)) (ts : List (SumTree R)) (h : L.length = ts.length) :
    ((List.zipWith (fun ab t => SumTree.mac true ab.1 ab.2 t) L ts).map (·.leaves)).sum
      = (L : Multiset (R × R)) + (ts.map (·.leaves)).sum := by
  induction L generalizing ts with
  | nil =>
    cases ts with
    | nil => simp
    | cons t ts => simp at h
  | cons a L ih =>
    cases ts with
    | nil => simp at h
    | cons t ts =>
      simp only [List.map_cons, List.zipWith_cons_cons, List.sum_cons,
        ih ts (by simpa using h), SumTree.leaves]
      rw [← Multiset.cons_coe, ← Multiset.singleton_add, ← Multiset.singleton_add]
      abel

theorem zip_depth (L : List (R × R)) (ts : List (SumTree R)) (k : Nat)
    (h : ∀ t ∈ ts, t.depth ≤ k) (hk : 1 ≤ k) :
    ∀ t ∈ List.zipWith (fun ab t => SumTree.mac true ab.1 ab.2 t) L ts, t.depth ≤ k + 1 := by
  induction L generalizing ts with
  | nil => simp
  | cons a L ih =>
    cases ts with
    | nil => simp
    | cons t ts =>
      intro s hs
      simp only [List.zipWith_cons_cons, List.mem_cons] at hs
      rcases hs with rfl | hs
      · have := h t (by simp)
        simp only [SumTree.depth]
        omega
      · exact ih ts (fun t ht => h t (by simp [ht])) s hs

theorem lanesAt_pairs {ind : List Int} {val x : List R} {base p : Int} {K : Nat}
    {f : Nat → R × R} (h : ∀ l, l < K → pairAt ind val x base (p + l) = some (f l)) :
    lanesAt K ind val x base p = some ((List.range K).map f) := by
  unfold lanesAt
  exact mapM_range_some K h

/-- the registers -/
theorem lanes_tree (F : Fpu R) {K : Nat} (hK : 0 < K) (hs : List R → R) {ind : List Int}
    {val x : List R} {base lo hi : Int} {n : Nat} {f : Nat → R × R} (hhi : hi = lo + n)
    (h : ∀ t : Nat, t < n → pairAt ind val x base (lo - base + t) = some (f t)) :
    ∃ ts : List (SumTree R),
      forS lo (hi - ((n % K : Nat) : Int)) K (fun j (v : List R) => do
        let L ← lanesAt K ind val x base (j - base)
        some ((vecFp F K hs).fma L v)) (List.replicate K 0) = some (ts.map (·.eval F)) ∧
      ts.length = K ∧ (ts.map (·.leaves)).sum = pairs f (K * (n / K)) ∧
      ∀ t ∈ ts, t.depth ≤ n / K + 1 := by
  have hdm := Nat.div_add_mod n K
  obtain ⟨v, h1, ts, h2, h3, h4, h5⟩ := forS_inv (lo := lo) (hi := hi - ((n % K : Nat) : Int))
    (K := K) (k := n / K) hK (by omega)
    (f := fun j (v : List R) => do
        let L ← lanesAt K ind val x base (j - base)
        some ((vecFp F K hs).fma L v)) (s := List.replicate K 0)
    (P := fun k v => ∃ ts : List (SumTree R), v = ts.map (·.eval F) ∧ ts.length = K ∧
      (ts.map (·.leaves)).sum = pairs f (K * k) ∧ ∀ t ∈ ts, t.depth ≤ k + 1)
    ⟨List.replicate K .zero, by simp [SumTree.eval], by simp, by simp [SumTree.leaves, pairs],
      by intro t ht; rw [List.eq_of_mem_replicate ht]; simp [SumTree.depth]⟩ (by
      rintro k v hk ⟨ts, rfl, h3, h4, h5⟩
      have hle : K * (k + 1) ≤ K * (n / K) := Nat.mul_le_mul_left K hk
      rw [Nat.mul_succ] at hle
      have hl := lanesAt_pairs (ind := ind) (val := val) (x := x) (base := base)
        (p := lo + ((K * k : Nat) : Int) - base) (K := K) (f := fun l => f (K * k + l)) (by
          intro l hl
          rw [← h (K * k + l) (by omega)]
          congr 1
          push_cast
          ring)
      refine ⟨_, ?_, List.zipWith (fun ab t => SumTree.mac true ab.1 ab.2 t)
        ((List.range K).map fun l => f (K * k + l)) ts, rfl, by simp [h3], ?_, ?_⟩
      · simp only [hl, Option.bind_eq_bind, Option.bind_some]
        rw [← zip_eval]
        rfl
      · rw [zip_leaves _ _ (by simp [h3]), h4, Nat.mul_succ, pairs_add, add_comm]
        rfl
      · exact zip_depth _ _ _ h5 (by omega))
  exact ⟨ts, by rw [h1, h2], h3, h4, h5⟩

/-- what a kernel needs of its horizontal sum: `d` levels -/
def Model.FpKernel.Ok (F : Fpu R) (d : Nat) : FpKernel R → Prop
  | .ref => True
  | .vec8 => 3 ≤ d
  | .avx2 => 2 ≤ d
  | .avx512 => 3 ≤ d
  | .kt K hs => 0 < K ∧ HsOk F K d hs

/-- the blocked dot product -/
theorem dotKFp_tree (F : Fpu R) {K d : Nat} (hK : 0 < K) {hs : List R → R} (hh : HsOk F K d hs)
    {ind : List Int} {val x : List R} {base lo hi : Int} {n : Nat} {f : Nat → R × R}
    (hhi : hi = lo + n)
    (h : ∀ t : Nat, t < n → pairAt ind val x base (lo - base + t) = some (f t))
    (fin : List R → R) (hfin : fin = hs ∨ fin = finFp K hs lo hi) :
    ∃ t : SumTree R, dotKFp F K hs fin ind val x base lo hi = some (t.eval F) ∧
      t.leaves = pairs f n ∧ t.depth ≤ n + d + 1 := by
  have hdm := Nat.div_add_mod n K
  have hml := Nat.mod_lt n hK
  have hdl : n / K ≤ K * (n / K) := Nat.le_mul_of_pos_left _ hK
  have hrem : (hi - lo).tmod (K : Int) = ((n % K : Nat) : Int) := by
    rw [hhi, show lo + (n : Int) - lo = n by ring, Int.tmod_eq_emod_of_nonneg (by omega)]
    rfl
  have hdiv : (hi - lo).tdiv (K : Int) = ((n / K : Nat) : Int) := by
    rw [hhi, show lo + (n : Int) - lo = n by ring, Int.tdiv_eq_ediv_of_nonneg (by omega)]
    rfl
  obtain ⟨ts, e1, h3, h4, h5⟩ := lanes_tree F hK hs hhi h
  obtain ⟨t1, e2, h6, h7⟩ := hh ts _ h3 h5
  have hf : ∃ t0 : SumTree R, fin (ts.map (·.eval F)) = t0.eval F ∧
      t0.leaves = pairs f (K * (n / K)) ∧ t0.depth ≤ n / K + 1 + d := by
    rcases hfin with rfl | rfl
    · exact ⟨t1, e2, h6.trans h4, h7⟩
    · unfold finFp
      rw [hdiv]
      split
      · exact ⟨t1, e2, h6.trans h4, h7⟩
      · next hz =>
        have : n / K = 0 := by omega
        refine ⟨.zero, rfl, ?_, by simp [SumTree.depth]⟩
        rw [this]
        rfl
  obtain ⟨t0, e3, h8, h9⟩ := hf
  obtain ⟨t, e4, h10, h11⟩ := dotSeqFp_tree F (ind := ind) (val := val) (x := x) (base := base)
    (lo := hi - ((n % K : Nat) : Int)) (hi := hi) (n := n % K)
    (f := fun t => f (K * (n / K) + t)) (by omega) (by
      intro t ht
      rw [← h (K * (n / K) + t) (by omega)]
      have : (n : Int) = ((K * (n / K) : Nat) : Int) + ((n % K : Nat) : Int) := by
        exact_mod_cast hdm.symm
      rw [show hi - ((n % K : Nat) : Int) - base + (t : Int)
        = lo - base + ((K * (n / K) + t : Nat) : Int) by
          rw [hhi, this, Nat.cast_add (K * (n / K)) t]; ring]) t0
  refine ⟨t, ?_, ?_, by omega⟩
  · unfold dotKFp
    simp only [hrem]
    rw [e1]
    simp only [Option.bind_eq_bind, Option.bind_some]
    rw [e3]
    exact e4
  · rw [h10, h8, ← pairs_add, hdm]

theorem dotFp_tree (F : Fpu R) (k : FpKernel R) {d : Nat} (hk : k.Ok F d)
    {ind : List Int} {val x : List R} {base lo hi : Int} {n : Nat} {f : Nat → R × R}
    (hhi : hi = lo + n)
    (h : ∀ t : Nat, t < n → pairAt ind val x base (lo - base + t) = some (f t)) :
    ∃ t : SumTree R, k.dot F ind val x base lo hi = some (t.eval F) ∧
      t.leaves = pairs f n ∧ t.depth ≤ n + d + 1 := by
  have weaken : ∀ {K d' : Nat} {hs : List R → R}, HsOk F K d' hs → d' ≤ d → HsOk F K d hs := by
    intro K d' hs hh hle ts k' hl hd
    obtain ⟨t, a, b, c⟩ := hh ts k' hl hd
    exact ⟨t, a, b, by omega⟩
  cases k with
  | ref =>
    obtain ⟨t, e, h1, h2⟩ := dotSeqFp_tree F hhi h .zero
    refine ⟨t, e, by rw [h1]; simp [SumTree.leaves], ?_⟩
    simp only [SumTree.depth] at h2
    omega
  | vec8 => exact dotKFp_tree F (by omega) (weaken (hsum8f_ok F) hk) hhi h _ (Or.inr rfl)
  | avx2 => exact dotKFp_tree F (by omega) (weaken (hsum4l_ok F) hk) hhi h _ (Or.inr rfl)
  | avx512 => exact dotKFp_tree F (by omega) (weaken (hsum8d_ok F) hk) hhi h _ (Or.inr rfl)
  | kt K hs => exact dotKFp_tree F hk.1 hk.2 hhi h _ (Or.inl rfl)

/-- the pairs of row `i`: stored value and element of `x` -/
def rowPairs (A : Csr R) (x : List R) (i : Nat) : Multiset (R × R) :=
  ((A.row i).map fun e => (e.2, x.getD e.1.toNat 0) : List _)

theorem rowFp_tree (F : Fpu R) (k : FpKernel R) {d : Nat} (hk : k.Ok F d) {A : Csr R} (hA : A.WF)
    {x : List R} (hx : A.n ≤ x.length) {i : Nat} (hi : i < A.m) :
    ∃ t : SumTree R, k.dot F A.ind A.val x A.base (A.p i) (A.p (i + 1)) = some (t.eval F) ∧
      t.leaves = rowPairs A x i ∧ t.depth ≤ (A.row i).length + d + 1 := by
  have hs := Csr.seg_row hA hi
  have hr : ∀ e ∈ A.row i, 0 ≤ e.1 ∧ e.1 < A.n := fun e he => Csr.row_range hA he
  have hp : ∀ t (ht : t < (A.row i).length), pairAt A.ind A.val x A.base (A.p i - A.base + t)
      = some (((A.row i)[t].2, x.getD (A.row i)[t].1.toNat 0)) := by
    intro t ht
    obtain ⟨h1, h2⟩ := hs.2 t ht
    have hrt := hr _ (List.getElem_mem ht)
    simp only [pairAt, h1, h2, Option.bind_eq_bind, Option.bind_some]
    rw [add_sub_cancel_right, rd_eq hrt.1, List.getD_eq_getElem?_getD,
      List.getElem?_eq_getElem (show (A.row i)[t].1.toNat < x.length by omega)]
    rfl
  obtain ⟨t, e, h1, h2⟩ := dotFp_tree F k hk hs.1 (f := fun t =>
    if ht : t < (A.row i).length then ((A.row i)[t].2, x.getD (A.row i)[t].1.toNat 0) else (0, 0))
    (by intro t ht; rw [hp t ht, dif_pos ht])
  refine ⟨t, e, ?_, h2⟩
  rw [h1]
  unfold pairs rowPairs
  congr 1
  apply List.ext_getElem
  · simp
  · intro t h1 h2
    simp only [List.length_map, List.length_range] at h1
    simp [h1]

end Verif
