/-
Proofs about the general-matrix CSR kernels.
-/
import Verif.Proofs.MvLemmas
import Verif.Model.Csrmv

namespace Verif
open Model Finset

variable {R : Type}

/-! ### mapM over a range -/

theorem mapM_range_some {α : Type} {f : Nat → Option α} {g : Nat → α} (n : Nat)
    (h : ∀ l, l < n → f l = some (g l)) : (List.range n).mapM f = some ((List.range n).map g) := by
  have : ∀ (L : List Nat), (∀ l ∈ L, f l = some (g l)) → L.mapM f = some (L.map g) := by
    intro L
    induction L with
    | nil => intro _; rfl
    | cons a L ih =>
      intro hL
      rw [List.mapM_cons, hL a (by simp), ih (fun l hl => hL l (by simp [hl]))]
      rfl
  exact this _ (fun l hl => h l (by simpa using hl))

/-! ### blocked dot products -/

theorem term_elim [Mul R] {ind : List Int} {val x : List R} {base p : Int} {r : R}
    (h : term ind val x base p = some r) :
    ∃ c v xv, rd ind p = some c ∧ rd val p = some v ∧ rd x (c - base) = some xv ∧ v * xv = r := by
  simp only [term, Option.bind_eq_bind, Option.bind_eq_some_iff, Option.some.injEq] at h
  obtain ⟨c, h1, v, h2, xv, h3, h4⟩ := h
  exact ⟨c, v, xv, h1, h2, h3, h4⟩

section
variable [Semiring R] [DecidableEq R]

/-- What a register file has to do: accumulate the sum of the products of its lanes. -/
def Model.Vec.Ok (V : Vec R) (K : Nat) : Prop :=
  0 < K ∧ ∃ Inv : V.σ → Prop, Inv V.zero ∧ V.hsum V.zero = 0 ∧
    ∀ L s, L.length = K → Inv s → Inv (V.fma L s) ∧
      V.hsum (V.fma L s) = V.hsum s + (L.map fun ab => ab.1 * ab.2).sum

theorem dotSeq_spec {ind : List Int} {val x : List R} {base lo hi : Int} {nnz : Nat}
    {f : Nat → R} (hhi : hi = lo + nnz)
    (h : ∀ t : Nat, t < nnz → term ind val x base (lo - base + t) = some (f t)) (init : R) :
    dotSeq ind val x base lo hi init = some (init + ∑ t ∈ range nnz, f t) := by
  unfold dotSeq
  obtain ⟨s, h1, k, h2, h3⟩ := forC_inv (lo := lo) (hi := hi)
    (f := fun j r => (term ind val x base (j - base)).bind fun t => some (r + t)) (s := init)
    (P := fun j r => ∃ k : Nat, j = lo + k ∧ r = init + ∑ t ∈ range k, f t)
    (by omega) ⟨0, by simp, by simp⟩ (by
      rintro j r h1 h2 ⟨k, rfl, rfl⟩
      refine ⟨init + ∑ t ∈ range (k + 1), f t, ?_, k + 1, by push_cast; ring, rfl⟩
      rw [show lo + (k : Int) - base = lo - base + k by ring, h k (by omega)]
      simp only [Option.bind_some]
      rw [sum_range_succ, add_assoc])
  have : k = nnz := by omega
  subst this
  simpa [h3] using h1

theorem lanesAt_spec {K : Nat} {ind : List Int} {val x : List R} {base p : Int} {f : Nat → R}
    (h : ∀ t : Nat, t < K → term ind val x base (p + t) = some (f t)) :
    ∃ L, lanesAt K ind val x base p = some L ∧ L.length = K ∧
      (L.map fun ab => ab.1 * ab.2).sum = ∑ t ∈ range K, f t := by
  classical
  have : ∀ t : Nat, ∃ vx : R × R, t < K → ∃ c, rd ind (p + t) = some c ∧ rd val (p + t) = some vx.1 ∧
      rd x (c - base) = some vx.2 ∧ vx.1 * vx.2 = f t := by
    intro t
    by_cases ht : t < K
    · obtain ⟨c, v, xv, h1, h2, h3, h4⟩ := term_elim (h t ht)
      exact ⟨(v, xv), fun _ => ⟨c, h1, h2, h3, h4⟩⟩
    · exact ⟨(0, 0), fun h => absurd h ht⟩
  choose g hg using this
  refine ⟨(List.range K).map g, ?_, by simp, ?_⟩
  · unfold lanesAt
    apply mapM_range_some
    intro l hl
    obtain ⟨c, h1, h2, h3, _⟩ := hg l hl
    simp [h1, h2, h3]
  · rw [List.map_map, list_sum_range (g := f)]
    · simp
    · intro t ht
      simp only [List.getElem_range, Function.comp]
      obtain ⟨c, _, _, _, h4⟩ := hg t (by simpa using ht)
      exact h4

theorem sum_range_block (f : Nat → R) (K k : Nat) :
    ∑ t ∈ range (K * (k + 1)), f t
      = ∑ t ∈ range (K * k), f t + ∑ t ∈ range K, f (K * k + t) := by
  rw [Nat.mul_succ, sum_range_add]

theorem dotK_spec {V : Vec R} {K : Nat} (hV : V.Ok K) (fin : V.σ → R) {ind : List Int}
    {val x : List R} {base lo hi : Int} {nnz : Nat} {f : Nat → R} (hhi : hi = lo + nnz)
    (h : ∀ t : Nat, t < nnz → term ind val x base (lo - base + t) = some (f t)) :
    ∃ v, V.hsum v = ∑ t ∈ range (K * (nnz / K)), f t ∧
      dotK V K fin ind val x base lo hi
        = some (fin v + ∑ t ∈ range (nnz % K), f (K * (nnz / K) + t)) := by
  obtain ⟨hK, Inv, i0, i1, i2⟩ := hV
  have e2 : (hi - lo).tmod (K : Int) = ((nnz % K : Nat) : Int) := by
    rw [hhi, show lo + (nnz : Int) - lo = nnz by ring, Int.tmod_eq_emod_of_nonneg (by omega)]
    rfl
  have hdiv := Nat.div_add_mod nnz K
  obtain ⟨v, h1, _, h3⟩ := forS_inv (lo := lo) (hi := hi - ((nnz % K : Nat) : Int)) (K := K)
    (k := nnz / K) hK (by omega)
    (f := fun j v => (lanesAt K ind val x base (j - base)).bind fun L => some (V.fma L v))
    (s := V.zero)
    (P := fun k v => Inv v ∧ V.hsum v = ∑ t ∈ range (K * k), f t) ⟨i0, by simp [i1]⟩ (by
      rintro k v hk ⟨p1, p2⟩
      have hle : K * (k + 1) ≤ K * (nnz / K) := Nat.mul_le_mul_left K hk
      rw [Nat.mul_succ] at hle
      obtain ⟨L, g1, g2, g3⟩ := lanesAt_spec (K := K) (ind := ind) (val := val) (x := x)
        (base := base) (p := lo + (K * k : Nat) - base) (f := fun t => f (K * k + t)) (by
          intro t ht
          rw [← h (K * k + t) (by omega)]
          congr 1; push_cast; ring)
      obtain ⟨j1, j2⟩ := i2 L v g2 p1
      refine ⟨V.fma L v, by simp only [g1, Option.bind_some], j1, ?_⟩
      rw [j2, p2, g3, sum_range_block])
  refine ⟨v, h3, ?_⟩
  unfold dotK
  simp only [e2, Option.bind_eq_bind]
  rw [h1]
  simp only [Option.bind_some]
  exact dotSeq_spec (f := fun t => f (K * (nnz / K) + t)) (by omega) (by
    intro t ht
    rw [← h (K * (nnz / K) + t) (by omega)]
    congr 1
    omega) _

theorem zipWith_fma_sum : ∀ (L : List (R × R)) (v : List R), L.length = v.length →
    (List.zipWith (fun ab c => ab.1 * ab.2 + c) L v).sum
      = v.sum + (L.map fun ab => ab.1 * ab.2).sum
  | [], [], _ => by simp
  | a :: L, c :: v, h => by
    simp only [List.zipWith_cons_cons, List.sum_cons, List.map_cons]
    rw [zipWith_fma_sum L v (by simpa using h)]
    abel
  | [], _ :: _, h => by simp at h
  | _ :: _, [], h => by simp at h

theorem vecLanes_ok {K : Nat} (hK : 0 < K) {hs : List R → R}
    (h : ∀ v : List R, v.length = K → hs v = v.sum) : (vecLanes K hs).Ok K := by
  refine ⟨hK, fun v => List.length v = K, by simp [vecLanes], ?_, ?_⟩
  · simp only [vecLanes]
    rw [h _ (by simp)]
    simp
  · intro L (s : List R) hL (hs' : s.length = K)
    have hl : (List.zipWith (fun ab c => ab.1 * ab.2 + c) L s : List R).length = K := by
      rw [List.length_zipWith, hL, hs']; simp
    refine ⟨hl, ?_⟩
    simp only [vecLanes]
    rw [h _ hl, h _ hs', zipWith_fma_sum L s (by rw [hL]; exact hs'.symm)]

theorem hsum4l_sum (v : List R) (h : v.length = 4) : hsum4l v = v.sum := by
  rcases v with _ | ⟨a, _ | ⟨b, _ | ⟨c, _ | ⟨d, _ | ⟨e, v⟩⟩⟩⟩⟩ <;> simp at h
  simp only [hsum4l, List.sum_cons, List.sum_nil, add_zero]
  abel

theorem len8 {v : List R} (h : v.length = 8) :
    ∃ a b c d e f g k, v = [a, b, c, d, e, f, g, k] := by
  rcases v with _ | ⟨a, _ | ⟨b, _ | ⟨c, _ | ⟨d, _ | ⟨e, _ | ⟨f, _ | ⟨g, _ | ⟨k, _ | ⟨l, v⟩⟩⟩⟩⟩⟩⟩⟩⟩ <;>
    simp at h
  exact ⟨_, _, _, _, _, _, _, _, rfl⟩

theorem hsum8f_sum (v : List R) (h : v.length = 8) : hsum8f v = v.sum := by
  obtain ⟨a, b, c, d, e, f, g, k, rfl⟩ := len8 h
  simp only [hsum8f, List.sum_cons, List.sum_nil, add_zero]
  abel

theorem hsum8d_sum (v : List R) (h : v.length = 8) : hsum8d v = v.sum := by
  obtain ⟨a, b, c, d, e, f, g, k, rfl⟩ := len8 h
  simp only [hsum8d, List.sum_cons, List.sum_nil, add_zero]
  abel

/-- the registers of a kernel are sound (only a condition for the templated kernel) -/
def Model.GnKernel.Ok : GnKernel R → Prop
  | .kt K V => V.Ok K
  | _ => True

theorem finIf_spec {V : Vec R} {K nnz : Nat} (hK : 0 < K) {lo hi : Int} (hhi : hi = lo + nnz)
    {f : Nat → R} {v : V.σ} (hv : V.hsum v = ∑ t ∈ range (K * (nnz / K)), f t) :
    finIf V K lo hi 0 v = ∑ t ∈ range (K * (nnz / K)), f t := by
  unfold finIf
  rw [hhi, show lo + (nnz : Int) - lo = nnz by ring, Int.tdiv_eq_ediv_of_nonneg (by omega)]
  by_cases hz : nnz / K = 0
  · have : ((nnz : Int) / (K : Int)) = 0 := by exact_mod_cast hz
    simp [this, hz]
  · have : ((nnz : Int) / (K : Int)) ≠ 0 := by exact_mod_cast hz
    rw [if_pos this, hv]

theorem gnDot_spec {k : GnKernel R} (hk : k.Ok) {ind : List Int} {val x : List R}
    {base lo hi : Int} {nnz : Nat} {f : Nat → R} (hhi : hi = lo + nnz)
    (h : ∀ t : Nat, t < nnz → term ind val x base (lo - base + t) = some (f t)) :
    k.dot ind val x base lo hi = some (∑ t ∈ range nnz, f t) := by
  have split : ∀ K : Nat, (∑ t ∈ range (K * (nnz / K)), f t
      + ∑ t ∈ range (nnz % K), f (K * (nnz / K) + t)) = ∑ t ∈ range nnz, f t := by
    intro K
    rw [← sum_range_add, Nat.div_add_mod]
  have lanes : ∀ (K : Nat) (hs : List R → R), 0 < K → (∀ v : List R, v.length = K → hs v = v.sum) →
      dotK (vecLanes K hs) K (finIf (vecLanes K hs) K lo hi 0) ind val x base lo hi
        = some (∑ t ∈ range nnz, f t) := by
    intro K hs hK hhs
    obtain ⟨v, h1, h2⟩ := dotK_spec (vecLanes_ok hK hhs) (finIf (vecLanes K hs) K lo hi 0) hhi h
    rw [h2, finIf_spec hK hhi h1, split]
  cases k with
  | ref => simp only [GnKernel.dot]; rw [dotSeq_spec hhi h]; simp
  | vec8 => exact lanes 8 _ (by omega) hsum8f_sum
  | avx2 => exact lanes 4 _ (by omega) hsum4l_sum
  | avx512 => exact lanes 8 _ (by omega) hsum8d_sum
  | kt K V =>
    obtain ⟨v, h1, h2⟩ := dotK_spec (V := V) (K := K) hk V.hsum hhi h
    simp only [GnKernel.dot]
    rw [h2, h1, split]

theorem gnDot_row {k : GnKernel R} (hk : k.Ok) {A : Csr R} (h : A.WF) {x : List R}
    (hx : A.n ≤ x.length) {i : Nat} (hi : i < A.m) :
    k.dot A.ind A.val x A.base (A.p i) (A.p (i + 1)) = some (rowDot A x i) := by
  have hrl := Csr.row_length h hi
  rw [gnDot_spec hk (nnz := (A.row i).length) (by omega)
    (f := fun t => if ht : t < (A.row i).length then
      (A.row i)[t].2 * x.getD (A.row i)[t].1.toNat 0 else 0) (fun t ht => by
      rw [row_term h hx hi ht, dif_pos ht])]
  congr 1
  unfold rowDot
  rw [list_sum_range]
  intro t ht
  rw [dif_pos ht]

end

/-! ### storing -/

section
variable [Zero R] [One R] [Add R] [Mul R] [DecidableEq R]

/-- the value a kernel stores in `y[i]` -/
def gnComb (k : GnKernel R) (alpha beta r yi : R) : R :=
  match k with
  | .kt _ _ => if beta = 0 then r * alpha
      else if beta = 1 then yi + r * alpha else yi * beta + r * alpha
  | _ => comb alpha beta r yi

theorem gnStore_spec (k : GnKernel R) {alpha beta r : R} {y : List R} {len : Nat} {f : Nat → R}
    (hy : Rep y len f) {i : Nat} (hi : i < len) :
    ∃ y', k.store alpha beta r i y = some y' ∧
      Rep y' len (Function.update f i (gnComb k alpha beta r (f i))) := by
  cases k <;> simp only [GnKernel.store, gnComb] <;> try exact storeRow_spec hy hi
  unfold storeRowKt
  by_cases hb : beta = 0
  · simp only [hb, if_true]
    exact hy.wr_nat _ hi
  · simp only [hb, if_false, hy.rd_nat hi, Option.bind_eq_bind, Option.bind_some]
    exact hy.wr_nat _ hi

theorem gnComb_zero (k : GnKernel R) (alpha r yi yi' : R) :
    gnComb k alpha 0 r yi = gnComb k alpha 0 r yi' := by
  cases k <;> simp [gnComb, comb]

theorem gnProg_run (k : GnKernel R) (alpha beta r : R) (i : Int) (y : List R) :
    (k.prog alpha beta r i).run y = k.store alpha beta r i y := by
  have last : ∀ (o : Option (List R)), (o.bind fun mem => some mem) = o := by
    intro o; cases o <;> rfl
  cases k <;> simp only [GnKernel.prog, GnKernel.store, storeRow, storeRowKt] <;>
    by_cases hb : beta = 0 <;> simp [hb, Prog.run] <;>
    first | exact last _ | (congr 1; funext v; exact last _)

theorem gnProg_confined (k : GnKernel R) (alpha beta r : R) (i : Int) :
    (k.prog alpha beta r i).Confined (fun a => a = i) := by
  cases k <;> simp only [GnKernel.prog] <;>
    by_cases hb : beta = 0 <;> simp [hb, Prog.Confined]

end

theorem gnComb_eq [CommSemiring R] [DecidableEq R] (k : GnKernel R) (alpha beta r yi : R) :
    gnComb k alpha beta r yi = alpha * r + beta * yi := by
  cases k <;> simp only [gnComb, comb_eq]
  by_cases h0 : beta = 0
  · simp [h0, mul_comm]
  · by_cases h1 : beta = 1
    · simp only [h1, if_true]
      by_cases h2 : (1 : R) = 0
      · simp only [h2, if_true]
        rw [show yi = 0 by rw [← one_mul yi, h2, zero_mul]]; ring
      · simp only [h2, if_false]; ring
    · simp only [h0, h1, if_false]; ring

end Verif
