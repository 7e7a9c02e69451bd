/-
Rounding errors of the transposed product.
-/
import Verif.Proofs.SchedMvt
import Verif.Proofs.MmRound
import Verif.Proofs.RoundedSp2m2

namespace Verif
open Model

variable {ρ : Rounding} {R : Type} [Zero R] [Add R] [Mul R] {v : R → ℝ} {fac : R → Option (ℝ × ℝ)}

/-- numbers added up from left to right -/
theorem foldAdd_near {α : Type} (hR : Contracts ρ v fac) {g : α → R} {ev sv : α → ℝ} {k0 : Nat} :
    ∀ {L : List α}, (∀ a ∈ L, NearC ρ v fac k0 (ev a) (sv a) (g a)) → ∀ {r : R} {k : Nat} {e s : ℝ}, k0 ≤ k →
      NearC ρ v fac k e s r →
      NearC ρ v fac (k + L.length) (e + (L.map ev).sum) (s + (L.map sv).sum) (L.foldl (fun r a => r + g a) r)
  | [], _, r, k, e, s, _, h => by simpa using h
  | a :: L, hL, r, k, e, s, hk, h => by
    have h1 := h.add hR ((hL a (.head _)).mono hk)
    have := foldAdd_near hR (fun b hb => hL b (.tail _ hb)) (k := k + 1) (by omega) h1
    rw [add_assoc e, add_assoc s, show k + 1 + L.length = k + (L.length + 1) by omega] at this
    rw [List.foldl_cons, List.map_cons, List.map_cons, List.sum_cons, List.sum_cons, List.length_cons]
    exact this

omit [Zero R] [Mul R] in
theorem mvtCol_append (r : R) (L M : List (Int × R)) (c : Nat) : mvtCol r (L ++ M) c = mvtCol (mvtCol r L c) M c := by
  unfold mvtCol
  rw [List.filter_append, List.foldl_append]

omit [Zero R] [Mul R] in
theorem mvtCol_map (r : R) (S : List (Int × R)) (w : R → R) (c : Nat) :
    mvtCol r (S.map fun e => (e.1, w e.2)) c
      = (S.filter fun e => e.1 = (c : Int)).foldl (fun r e => r + w e.2) r := by
  unfold mvtCol
  rw [List.filter_map, List.foldl_map]
  rfl

/-- sum of the entries of a row in column `c`, each seen through `f` -/
def mvtAt (f : R → ℝ) (S : List (Int × R)) (c : Nat) : ℝ :=
  ((S.filter fun e => e.1 = (c : Int)).map fun e => f e.2).sum

theorem mvtRow_near (hR : Contracts ρ v fac) {alpha xi : R} (hxi : fac xi = none) {K : Nat} {S : List (Int × R)}
    (hS : ∀ e ∈ S, fac e.2 = none) (c : Nat) {r : R} {k : Nat} {e s : ℝ} (hk : 2 ≤ k) (h : NearC ρ v fac k e s r) :
    NearC ρ v fac (k + (S.filter fun e => e.1 = (c : Int)).length) (e + v alpha * (mvtAt v S c * v xi))
      (s + |v alpha| * (mvtAt (fun a => |v a|) S c * |v xi|)) (mvtCol r (mvtRow K alpha xi S) c) := by
  unfold mvtRow
  rw [mvtCol_append, mvtCol_map r _ (fun a => a * (alpha * xi)), mvtCol_map _ _ (fun a => a * alpha * xi)]
  have h1 := foldAdd_near hR (k0 := 2) (g := fun e : Int × R => e.2 * (alpha * xi))
    (ev := fun e => v e.2 * (v alpha * v xi)) (sv := fun e => |v e.2| * (|v alpha| * |v xi|))
    (L := (S.take (K * (S.length / K))).filter fun e => e.1 = (c : Int))
    (fun a _ => NearC.mul_left hR _ (NearC.mul_left hR alpha (NearC.plain hxi))) hk h
  have h2 := foldAdd_near hR (k0 := 2) (g := fun e : Int × R => e.2 * alpha * xi)
    (ev := fun e => v xi * (v alpha * v e.2)) (sv := fun e => |v xi| * (|v alpha| * |v e.2|))
    (L := (S.drop (K * (S.length / K))).filter fun e => e.1 = (c : Int))
    (fun a ha => NearC.mul_right hR xi (NearC.mul_right hR alpha (NearC.plain
      (hS a (List.mem_of_mem_drop (List.mem_of_mem_filter ha)))))) (by omega) h1
  have hsplit : ∀ f : R → ℝ, mvtAt f S c = mvtAt f (S.take (K * (S.length / K))) c
      + mvtAt f (S.drop (K * (S.length / K))) c := by
    intro f
    unfold mvtAt
    rw [← List.sum_append, ← List.map_append, ← List.filter_append, List.take_append_drop]
  have hlen : (S.filter fun e => e.1 = (c : Int)).length
      = ((S.take (K * (S.length / K))).filter fun e => e.1 = (c : Int)).length
        + ((S.drop (K * (S.length / K))).filter fun e => e.1 = (c : Int)).length := by
    rw [← List.length_append, ← List.filter_append, List.take_append_drop]
  have hf : ∀ (f : R → ℝ) (a b : ℝ) (M : List (Int × R)),
      ((M.filter fun e => e.1 = (c : Int)).map fun e => f e.2 * (a * b)).sum = a * (mvtAt f M c * b) := by
    intro f a b M
    unfold mvtAt
    rw [List.sum_map_mul_right]
    ring
  have hf' : ∀ (f : R → ℝ) (a b : ℝ) (M : List (Int × R)),
      ((M.filter fun e => e.1 = (c : Int)).map fun e => b * (a * f e.2)).sum = a * (mvtAt f M c * b) := by
    intro f a b M
    rw [← hf]
    congr 1
    apply List.map_congr_left
    intro e _
    ring
  rw [hf v, hf (fun a => |v a|), hf' v, hf' (fun a => |v a|)] at h2
  rw [hlen, hsplit v, hsplit fun a => |v a|]
  convert h2 using 1 <;> ring

theorem mvtRows_near' (hR : Contracts ρ v fac) {alpha : R} {x : List R} (hx : ∀ a ∈ x, fac a = none) {K : Nat} {A : Csr R}
    (hA : ∀ a ∈ A.val, fac a = none) (c lo : Nat) {r : R} {k : Nat} {e s : ℝ} (hk : 2 ≤ k) (h : NearC ρ v fac k e s r) : ∀ n,
    NearC ρ v fac (k + ∑ i ∈ Finset.range n, ((A.row (lo + i)).filter fun e => e.1 = (c : Int)).length)
      (e + ∑ i ∈ Finset.range n, v alpha * (mvtAt v (A.row (lo + i)) c * v (x.getD (lo + i) 0)))
      (s + ∑ i ∈ Finset.range n, |v alpha| * (mvtAt (fun a => |v a|) (A.row (lo + i)) c * |v (x.getD (lo + i) 0)|))
      (mvtCol r ((List.range n).flatMap fun i => mvtRow K alpha (x.getD (lo + i) 0) (A.row (lo + i))) c)
  | 0 => by
    simpa [mvtCol] using h
  | n + 1 => by
    rw [List.range_succ, List.flatMap_append, mvtCol_append, Finset.sum_range_succ, Finset.sum_range_succ,
      Finset.sum_range_succ, ← Nat.add_assoc, List.flatMap_singleton, ← add_assoc, ← add_assoc]
    refine mvtRow_near hR ?_ ?_ c (by omega) (mvtRows_near' hR hx hA c lo hk h n)
    · rw [List.getD_eq_getElem?_getD]
      cases hg : x[lo + n]? with
      | none => exact hR.zero_fac
      | some a => exact hx a (List.mem_of_getElem? hg)
    · intro e he
      refine hA _ ?_
      unfold Csr.row at he
      obtain ⟨z, hz, rfl⟩ := List.mem_map.1 he
      exact (List.of_mem_zip (List.mem_of_mem_drop (List.mem_of_mem_take hz))).2

theorem mvtRows_near (hR : Contracts ρ v fac) {alpha : R} {x : List R} (hx : ∀ a ∈ x, fac a = none) {K : Nat} {A : Csr R}
    (hA : ∀ a ∈ A.val, fac a = none) (c lo n : Nat) :
    NearC ρ v fac (2 + ∑ i ∈ Finset.range n, ((A.row (lo + i)).filter fun e => e.1 = (c : Int)).length)
      (∑ i ∈ Finset.range n, v alpha * (mvtAt v (A.row (lo + i)) c * v (x.getD (lo + i) 0)))
      (∑ i ∈ Finset.range n, |v alpha| * (mvtAt (fun a => |v a|) (A.row (lo + i)) c * |v (x.getD (lo + i) 0)|))
      (mvtCol 0 ((List.range n).flatMap fun i => mvtRow K alpha (x.getD (lo + i) 0) (A.row (lo + i))) c) := by
  have := mvtRows_near' hR (alpha := alpha) hx (K := K) hA c lo le_rfl ((NearC.zero hR).mono (l := 2) (by omega)) n
  rwa [zero_add, zero_add] at this

theorem mapTo_mat_at (f : R → ℝ) (A : Csr R) (i c : Nat) : (A.mapTo f).mat i c = mvtAt f (A.row i) c := by
  rw [mat_eq_colSum, mapTo_row]
  unfold colSum mvtAt
  rw [List.filter_map, List.map_map]
  rfl

theorem mvtScale_near [One R] [DecidableEq R] (hR : Contracts ρ v fac) (h1 : v 1 = 1) {beta r : R} (hr : fac r = none) :
    NearC ρ v fac 1 (v beta * v r) (|v beta| * |v r|) (mvtScale beta r) := by
  unfold mvtScale
  by_cases h0 : beta = 0
  · rw [if_pos h0, h0, hR.zero]
    simpa using (NearC.zero hR).mono (l := 1) (by omega)
  · rw [if_neg h0]
    by_cases hb : beta = 1
    · rw [if_pos hb, hb, h1]
      simpa using (NearC.plain (ρ := ρ) (v := v) hr).mono (l := 1) (by omega)
    · rw [if_neg hb]
      exact NearC.mul_left hR beta (NearC.plain hr)

/-- the serial code -/
theorem mvtSerial_near [One R] [DecidableEq R] (hR : Contracts ρ v fac) (h1 : v 1 = 1) {alpha beta : R} {x : List R}
    (hx : ∀ a ∈ x, fac a = none) {A : Csr R} (hA : ∀ a ∈ A.val, fac a = none) (c : Nat) {r : R} (hr : fac r = none) :
    NearC ρ v fac (A.colCount c + 2)
      (v beta * v r + v alpha * ∑ i ∈ Finset.range A.m, (A.mapTo v).mat i c * v (x.getD i 0))
      (|v beta| * |v r| + |v alpha| * ∑ i ∈ Finset.range A.m, (A.mapTo fun a => |v a|).mat i c * |v (x.getD i 0)|)
      (mvtCol (mvtScale beta r) (mvtRows 1 alpha A x 0 A.m) c) := by
  have := mvtRows_near' hR (alpha := alpha) hx (K := 1) hA c 0 le_rfl ((mvtScale_near hR h1 (beta := beta) hr).mono (by omega)) A.m
  simp only [Nat.zero_add, ← mapTo_mat_at, ← Finset.mul_sum] at this
  rw [Nat.add_comm (A.colCount c)]
  unfold mvtRows Csr.colCount
  simpa using this

/-- one element of the result -/
theorem mvtElt_near [One R] [DecidableEq R] (hR : Contracts ρ v fac) (h1 : v 1 = 1) {alpha beta : R} {x : List R}
    (hx : ∀ a ∈ x, fac a = none) {K : Nat} {A : Csr R} (hA : ∀ a ∈ A.val, fac a = none) {T : Nat} (hT : 0 < T)
    {ord : List Nat} (hord : ord.Perm (List.range T)) (c : Nat) {r : R} (hr : fac r = none) :
    NearC ρ v fac (A.colCount c + T + 2)
      (v beta * v r + v alpha * ∑ i ∈ Finset.range A.m, (A.mapTo v).mat i c * v (x.getD i 0))
      (|v beta| * |v r| + |v alpha| * ∑ i ∈ Finset.range A.m, (A.mapTo fun a => |v a|).mat i c * |v (x.getD i 0)|)
      (mvtElt K alpha beta A x T ord c r) := by
  have hs := mvtScale_near hR h1 (beta := beta) hr
  have hlt : ∀ t ∈ ord, t < T := fun t ht => List.mem_range.1 (hord.mem_iff.1 ht)
  -- the part of one thread
  have hp : ∀ t ∈ ord, NearC ρ v fac (A.colCount c + 2)
      (∑ i ∈ Finset.Ico (A.m * t / T) (A.m * (t + 1) / T), v alpha * ((A.mapTo v).mat i c * v (x.getD i 0)))
      (∑ i ∈ Finset.Ico (A.m * t / T) (A.m * (t + 1) / T),
        |v alpha| * ((A.mapTo fun a => |v a|).mat i c * |v (x.getD i 0)|))
      (mvtCol 0 (mvtRows K alpha A x (A.m * t / T) (A.m * (t + 1) / T)) c) := by
    intro t ht
    obtain ⟨-, -, r3, r4⟩ := tRange A.m T t hT (hlt t ht)
    have := mvtRows_near hR (alpha := alpha) hx (K := K) hA c (A.m * t / T) (A.m * (t + 1) / T - A.m * t / T)
    rw [Finset.sum_Ico_eq_sum_range, Finset.sum_Ico_eq_sum_range]
    simp only [mapTo_mat_at]
    refine this.mono ?_
    have hle : ∑ i ∈ Finset.range (A.m * (t + 1) / T - A.m * t / T),
        ((A.row (A.m * t / T + i)).filter fun e => e.1 = (c : Int)).length ≤ A.colCount c := by
      rw [← Finset.sum_Ico_eq_sum_range (fun i => ((A.row i).filter fun e => e.1 = (c : Int)).length)]
      unfold Csr.colCount
      apply Finset.sum_le_sum_of_subset
      intro i hi
      rw [Finset.mem_Ico] at hi
      rw [Finset.mem_range]
      omega
    omega
  have hall := foldAdd_near hR (L := ord) hp (r := mvtScale beta r) (k := A.colCount c + 2) le_rfl (hs.mono (by omega))
  have hsum : ∀ f : Nat → ℝ, (ord.map fun t => ∑ i ∈ Finset.Ico (A.m * t / T) (A.m * (t + 1) / T), f i).sum
      = ∑ i ∈ Finset.range A.m, f i := by
    intro f
    rw [(hord.map _).sum_eq]
    have := sum_threads f A.m T T (le_refl _)
    rw [Nat.mul_div_cancel _ hT] at this
    rw [← this]
    exact list_sum_map_range T _
  rw [hsum, hsum, hord.length_eq, List.length_range, ← Finset.mul_sum, ← Finset.mul_sum] at hall
  rw [show A.colCount c + T + 2 = A.colCount c + 2 + T by omega]
  exact hall

end Verif
