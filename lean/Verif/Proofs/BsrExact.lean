/-
The BSR matrix-vector product in an arithmetic without algebraic laws: the products that are added to each
element, in order.
-/
import Verif.Spec.BsrExact
import Verif.Proofs.Bsrmv
import Verif.Proofs.MmRound

namespace Verif
open Model

variable {R : Type}

/-- `body` runs without undefined behaviour on every array of `len` cells and adds the products of `D k`, one
after another and from the left, to cell `k` -/
def AddsP [Add R] [Mul R] (len : Nat) (body : List R → Option (List R)) (D : Nat → List (R × R)) : Prop :=
  ∀ y f, Rep y len f → ∃ y', body y = some y' ∧ Rep y' len (fun k => dotLeft (f k) (D k))

section
variable [Add R] [Mul R]

theorem AddsP.congr {len : Nat} {body body' : List R → Option (List R)} {D D' : Nat → List (R × R)}
    (h : AddsP len body D) (hb : ∀ y, body' y = body y) (hD : ∀ k, k < len → D' k = D k) :
    AddsP len body' D' := by
  intro y f hy
  obtain ⟨y', h1, h2⟩ := h y f hy
  exact ⟨y', by rw [hb, h1], h2.congr (fun k hk => by rw [hD k hk])⟩

theorem addsP_id (len : Nat) : AddsP (R := R) len some (fun _ => []) :=
  fun y f hy => ⟨y, rfl, hy⟩

theorem dotLeft_append (r : R) (L M : List (R × R)) : dotLeft r (L ++ M) = dotLeft (dotLeft r L) M :=
  List.foldl_append

theorem AddsP.comp {len : Nat} {b1 b2 : List R → Option (List R)} {D1 D2 : Nat → List (R × R)}
    (h1 : AddsP len b1 D1) (h2 : AddsP len b2 D2) :
    AddsP len (fun y => (b1 y).bind b2) (fun k => D1 k ++ D2 k) := by
  intro y f hy
  obtain ⟨y1, e1, r1⟩ := h1 y f hy
  obtain ⟨y2, e2, r2⟩ := h2 y1 _ r1
  exact ⟨y2, by simp [e1, e2], r2.congr (fun k _ => by rw [dotLeft_append])⟩

theorem bsrRowCompute_addsP {val x : List R} {vl xl : Nat} {vf xf : Nat → R} (hv : Rep val vl vf)
    (hx : Rep x xl xf) {len o xo : Nat} (hxo : xo < xl) :
    ∀ n, n ≤ len → o + n ≤ vl →
      AddsP len (bsrRowCompute val x (o : Int) (xo : Int) n)
        (fun r => if r < n then [(vf (o + r), xf xo)] else [])
  | 0, _, _ => (addsP_id len).congr (fun _ => rfl) (by simp)
  | n + 1, hn, ho => by
    intro s f hs
    obtain ⟨s1, e1, r1⟩ := bsrRowCompute_addsP hv hx (o := o) hxo n (by omega) (by omega) s f hs
    have ev : rd val ((o : Int) + n) = some (vf (o + n)) := by
      rw [show (o : Int) + n = ((o + n : Nat) : Int) by push_cast; rfl]
      exact hv.rd_nat (by omega)
    obtain ⟨s2, e2, r2⟩ := r1.wr_nat (vf (o + n) * xf xo + f n) (i := n) (by omega)
    refine ⟨s2, ?_, r2.congr ?_⟩
    · simp only [bsrRowCompute, e1, ev, hx.rd_nat hxo, r1.rd_nat (show n < len by omega),
        Option.bind_eq_bind, Option.bind_some, lt_irrefl, if_false, dotLeft, List.foldl_nil, e2]
    · intro k hk
      by_cases h : k = n
      · subst h
        rw [Function.update_self]
        beta_reduce
        rw [if_pos (by omega)]
        rfl
      · rw [Function.update_of_ne h]
        simp only [show k < n + 1 ↔ k < n by omega]

theorem bsrCompute_addsP {val x : List R} {vl xl : Nat} {vf xf : Nat → R} (hv : Rep val vl vf)
    (hx : Rep x xl xf) {row : Nat} :
    ∀ n o xo, o + n * row ≤ vl → xo + n ≤ xl →
      AddsP row (bsrCompute row val x n (o : Int) (xo : Int))
        (fun r => (List.range n).reverse.map fun c => (vf (o + c * row + r), xf (xo + c)))
  | 0, _, _, _, _ => (addsP_id row).congr (fun _ => rfl) (by simp)
  | n + 1, o, xo, ho, hxo => by
    rw [Nat.succ_mul] at ho
    have h1 := bsrCompute_addsP hv hx (row := row) n (o + row) (xo + 1) (by omega) (by omega)
    have h2 := bsrRowCompute_addsP hv hx (len := row) (o := o) (xo := xo) (by omega) row (le_refl _)
      (by omega)
    refine (h1.comp h2).congr ?_ ?_
    · intro y
      simp only [bsrCompute, Option.bind_eq_bind]
      push_cast
      rfl
    · intro k hk
      rw [List.range_succ_eq_map, List.reverse_cons, List.map_append, if_pos hk, ← List.map_reverse, List.map_map]
      congr 1
      · apply List.map_congr_left
        intro c _
        simp only [Function.comp_apply, Nat.succ_eq_add_one]
        rw [show o + (c + 1) * row + k = o + row + c * row + k by rw [Nat.succ_mul]; omega,
          show xo + (c + 1) = xo + 1 + c by omega]
      · simp

theorem bsrChunks_addsP {val : List R} {vl : Nat} {vf : Nat → R} (hv : Rep val vl vf)
    {K blk o : Nat} (xv : R) (ho : o + blk ≤ vl) :
    ∀ c, c * K ≤ blk →
      AddsP blk (bsrChunks K blk val (o : Int) xv c)
        (fun r => if blk - c * K ≤ r then [(vf (o + r), xv)] else [])
  | 0, _ => (addsP_id blk).congr (fun _ => rfl) (fun k hk => by rw [if_neg (by omega)])
  | c + 1, hc => by
    intro s f hs
    have hcK : (c + 1) * K = c * K + K := Nat.succ_mul c K
    obtain ⟨s1, e1, r1⟩ := bsrChunks_addsP (K := K) hv xv ho c (by omega) s f hs
    have hp : (blk : Int) - (((c + 1) * K : Nat) : Int) = ((blk - (c + 1) * K : Nat) : Int) := by omega
    have hoff : (o : Int) + ((blk - (c + 1) * K : Nat) : Int) = ((o + (blk - (c + 1) * K) : Nat) : Int) := by
      push_cast; rfl
    obtain ⟨s2, e2, r2⟩ := vstore_rep r1 (p := ((blk - (c + 1) * K : Nat) : Int)) (K := K)
      (fun l => vf (o + (blk - (c + 1) * K) + l) * xv + f (blk - (c + 1) * K + l)) (by omega) (by omega)
    refine ⟨s2, ?_, r2.congr ?_⟩
    · simp only [bsrChunks, e1, Option.bind_eq_bind, Option.bind_some, hp, hoff]
      rw [vload_rep hv (by omega) (by omega), vload_rep r1 (by omega) (by omega)]
      simp only [Option.bind_some, zip2_map, Int.toNat_natCast]
      rw [← e2]
      congr 1
      apply List.map_congr_left
      intro l hl
      have hl := List.mem_range.1 hl
      rw [if_neg (by omega)]
      rfl
    · intro k hk
      simp only [Int.toNat_natCast]
      by_cases h : blk - (c + 1) * K ≤ k
      · by_cases h' : k < blk - (c + 1) * K + K
        · rw [if_pos (by omega), if_pos h,
            show blk - (c + 1) * K + (k - (blk - (c + 1) * K)) = k by omega,
            show o + (blk - (c + 1) * K) + (k - (blk - (c + 1) * K)) = o + k by omega]
          rfl
        · rw [if_neg (by omega), if_pos (by omega), if_pos h]
      · rw [if_neg (by omega), if_neg (by omega), if_neg h]

theorem bsrComputeV_addsP {val x : List R} {vl xl : Nat} {vf xf : Nat → R} (hv : Rep val vl vf)
    (hx : Rep x xl xf) {K blk o xo : Nat} (hK : K ∣ blk) (ho : o + blk * blk ≤ vl)
    (hxo : xo + blk ≤ xl) :
    ∀ c, c ≤ blk →
      AddsP blk (bsrComputeV K blk val x (o : Int) (xo : Int) c)
        (fun r => (List.range c).map fun t => (vf (o + (blk - 1 - t) * blk + r), xf (xo + (blk - 1 - t))))
  | 0, _ => (addsP_id blk).congr (fun _ => rfl) (by simp)
  | c + 1, hc => by
    have h1 := bsrComputeV_addsP hv hx hK ho hxo c (by omega)
    have hcol : (blk : Int) - ((c + 1 : Nat) : Int) = ((blk - 1 - c : Nat) : Int) := by omega
    have hle : (blk - 1 - c + 1) * blk ≤ blk * blk := Nat.mul_le_mul_right _ (by omega)
    rw [Nat.succ_mul] at hle
    have hq : blk / K * K = blk := Nat.div_mul_cancel hK
    have h2 := bsrChunks_addsP hv (K := K) (blk := blk) (o := o + (blk - 1 - c) * blk)
      (xf (xo + (blk - 1 - c))) (by omega) (blk / K) (by omega)
    refine (h1.comp h2).congr ?_ ?_
    · intro y
      simp only [bsrComputeV, Option.bind_eq_bind, hcol]
      congr 1
      funext s
      rw [show (xo : Int) + ((blk - 1 - c : Nat) : Int) = ((xo + (blk - 1 - c) : Nat) : Int) by
        push_cast; rfl, hx.rd_nat (by omega), Option.bind_some]
      congr 1
    · intro k hk
      rw [List.range_succ, List.map_append, if_pos (by omega)]
      rfl

theorem bsrBetaV_repP {len yl K : Nat} (beta : R) {y : List R} {g : Nat → R} (hy : Rep y yl g) :
    ∀ c p yo, p + c * K ≤ len → yo + c * K ≤ yl → ∀ (s : List R) (f : Nat → R), Rep s len f →
      ∃ s', bsrBetaV K beta y c (p : Int) (yo : Int) s = some s' ∧
        Rep s' len (fun k => if p ≤ k ∧ k < p + c * K then g (yo + (k - p)) * beta + f k else f k)
  | 0, p, _, _, _, s, f, hs => ⟨s, rfl, hs.congr (fun k _ => by rw [if_neg (by omega)])⟩
  | c + 1, p, yo, hp, hyo, s, f, hs => by
    have hcK : (c + 1) * K = c * K + K := Nat.succ_mul c K
    obtain ⟨s1, e1, r1⟩ := bsrBetaV_repP (K := K) beta hy c (p + K) (yo + K) (by omega) (by omega) s f hs
    obtain ⟨s2, e2, r2⟩ := vstore_rep r1 (p := (p : Int)) (K := K)
      (fun l => g (yo + l) * beta + f (p + l)) (by omega) (by omega)
    refine ⟨s2, ?_, r2.congr ?_⟩
    · simp only [bsrBetaV]
      rw [show (p : Int) + K = ((p + K : Nat) : Int) by push_cast; rfl,
        show (yo : Int) + K = ((yo + K : Nat) : Int) by push_cast; rfl, e1]
      simp only [Option.bind_eq_bind, Option.bind_some]
      rw [vload_rep r1 (by omega) (by omega), vload_rep hy (by omega) (by omega)]
      simp only [Option.bind_some, Int.toNat_natCast, zip2_map]
      rw [← e2]
      congr 1
      apply List.map_congr_left
      intro l hl
      have hl := List.mem_range.1 hl
      rw [if_neg (by omega)]
    · intro k hk
      simp only [Int.toNat_natCast]
      by_cases h : p ≤ k ∧ k < p + K
      · rw [if_pos (by omega), if_pos (by omega), show p + (k - p) = k by omega]
      · by_cases h' : p + K ≤ k ∧ k < p + K + c * K
        · rw [if_neg (by omega), if_pos h', if_pos (by omega),
            show yo + K + (k - (p + K)) = yo + (k - p) by omega]
        · rw [if_neg (by omega), if_neg h', if_neg (by omega)]

end

theorem map_range_rev {α : Type} (f : Nat → α) (n : Nat) :
    ((List.range n).map fun t => f (n - 1 - t)) = (List.range n).reverse.map f := by
  apply List.ext_getElem
  · simp
  · intro i h1 h2
    simp

section
variable [Zero R] [One R] [Add R] [Mul R] [DecidableEq R]

/-- block row `I`: the elements below `I * bd + bd` get their new value -/
def BsrRowIs (way : BsrWay) (B : Bsr R) (alpha beta : R) (x : List R) (len : Nat)
    (body : Int → List R → Option (List R)) : Prop :=
  ∀ (I : Nat) (y : List R) (f : Nat → R), I < B.mb → Rep y len f →
    ∃ y', body (I : Int) y = some y' ∧
      Rep y' len (fun k => if I * B.bd ≤ k ∧ k < I * B.bd + B.bd then
        bsrElt way alpha beta B x (f k) I (k - I * B.bd) else f k)

omit [One R] [DecidableEq R] in
theorem dotRight_append (r : R) (L M : List (R × R)) : dotRight r (L ++ M) = dotRight (dotRight r L) M :=
  List.foldl_append

theorem bsrGnBlock_val {B : Bsr R} (h : B.WF) (hcm : B.rowMajor = false) {x : List R}
    (hx : B.nb * B.bd ≤ x.length) {I k r : Nat} (hI : I < B.mb) (hk : k < B.hi I) (hr : r < B.bd)
    (sum : R) :
    bsrGnBlock B.base B.bd B.val B.ind x (r : Int) (k : Int) sum
      = some (dotRight sum (bsrBlockPairs false B x k r)) := by
  unfold bsrGnBlock
  rw [h.rd_ind hI hk]
  simp only [Option.bind_eq_bind, Option.bind_some, add_sub_cancel_right]
  have hxp := h.x_pos hI hk hx
  have hc := h.ind_range k (h.blk hI hk).1
  have hvl := (h.blk hI hk).2.2
  rw [Nat.succ_mul] at hvl
  obtain ⟨s, e, hs⟩ := forC_inv_nat (n := B.bd) (s := sum)
    (f := fun bj sum => (rd B.val ((B.bd : Int) * B.bd * k + r + B.bd * bj)).bind fun v =>
      (rd x ((B.bd : Int) * B.col k + bj)).bind fun xv => some (sum + v * xv))
    (P := fun c s => s = dotRight sum ((List.range c).map fun c =>
      (B.elem k r c, x.getD ((B.col k).toNat * B.bd + c) 0)))
    rfl (by
      rintro c s hc' rfl
      have hpos : k * (B.bd * B.bd) + (c * B.bd + r) < B.val.length := by
        have : (c + 1) * B.bd ≤ B.bd * B.bd := Nat.mul_le_mul_right _ hc'
        rw [Nat.succ_mul] at this
        omega
      have ev : rd B.val ((B.bd : Int) * B.bd * k + r + B.bd * (c : Int)) = some (B.elem k r c) := by
        rw [show (B.bd : Int) * B.bd * k + r + B.bd * (c : Int)
          = ((k * (B.bd * B.bd) + (c * B.bd + r) : Nat) : Int) by push_cast; ring]
        unfold Bsr.elem Bsr.pos
        rw [hcm]
        simp only [Bool.false_eq_true, if_false]
        exact (Rep.of_list B.val 0).rd_nat hpos
      have ex : rd x ((B.bd : Int) * B.col k + (c : Int))
          = some (x.getD ((B.col k).toNat * B.bd + c) 0) := by
        rw [show (B.bd : Int) * B.col k + (c : Int) = (((B.col k).toNat * B.bd + c : Nat) : Int) by
          push_cast; rw [Int.toNat_of_nonneg hc.1]; ring]
        exact (Rep.of_list x 0).rd_nat (by omega)
      refine ⟨_, by rw [ev, ex]; rfl, ?_⟩
      rw [List.range_succ, List.map_append, dotRight_append]
      rfl)
  rw [e, hs]
  rfl

theorem bsrGnRow_is {B : Bsr R} (h : B.WF) (hcm : B.rowMajor = false) {alpha beta : R} {x : List R}
    (hx : B.nb * B.bd ≤ x.length) {len : Nat} (hlen : B.mb * B.bd ≤ len) :
    BsrRowIs .general B alpha beta x len
      (bsrGnRow (decide (alpha ≠ 1)) (decide (beta ≠ 0)) alpha beta B.base B.bd B.val B.ind B.ptr x) := by
  intro I y f hI hy
  unfold bsrGnRow
  rw [h.rd_ptr (I := I) (by omega) rfl, h.rd_ptr (I := I + 1) (by omega) (by push_cast; rfl)]
  simp only [Option.bind_eq_bind, Option.bind_some]
  rw [h.lo_cast (by omega), h.hi_cast hI]
  have hrow : (I + 1) * B.bd ≤ B.mb * B.bd := Nat.mul_le_mul_right _ hI
  rw [Nat.succ_mul] at hrow
  refine forC_inv_nat (n := B.bd)
    (P := fun r s => Rep s len (fun k => if I * B.bd ≤ k ∧ k < I * B.bd + r then
        bsrElt .general alpha beta B x (f k) I (k - I * B.bd) else f k))
    (hy.congr (fun k _ => by rw [if_neg (by omega)])) ?_
  intro r s hr hs
  -- the dot product
  obtain ⟨d, ed, hd, -⟩ : ∃ d, forC (B.lo I : Int) (B.hi I : Int)
      (bsrGnBlock B.base B.bd B.val B.ind x (r : Int)) (0 : R) = some d ∧ d = dotRight 0 (bsrPairs false B x I r) ∧ True := by
    have hle := h.lo_le_hi hI
    obtain ⟨s', e', hs'⟩ := forC_inv_off (a := (B.lo I : Int)) (n := B.hi I - B.lo I)
      (b := (B.hi I : Int)) (f := bsrGnBlock B.base B.bd B.val B.ind x (r : Int)) (s := (0 : R))
      (fun n s => s = dotRight 0 ((List.range n).flatMap fun t => bsrBlockPairs false B x (B.lo I + t) r)) (by omega) rfl (by
        rintro n s hn rfl
        refine ⟨_, ?_, rfl⟩
        rw [show (B.lo I : Int) + n = ((B.lo I + n : Nat) : Int) by push_cast; rfl,
          bsrGnBlock_val h hcm hx hI (by omega) hr, List.range_succ, List.flatMap_append, dotRight_append]
        simp)
    refine ⟨s', e', ?_, trivial⟩
    exact hs'
  simp only [ed, Option.bind_some]
  have hp : (I : Int) * B.bd + r = ((I * B.bd + r : Nat) : Int) := by push_cast; rfl
  have hfin : ∀ v, v = bsrElt .general alpha beta B x (f (I * B.bd + r)) I r → ∃ s', wr s ((I : Int) * B.bd + r) v = some s' ∧
      Rep s' len (fun k => if I * B.bd ≤ k ∧ k < I * B.bd + (r + 1) then
        bsrElt .general alpha beta B x (f k) I (k - I * B.bd) else f k) := by
    intro v hv
    rw [hp]
    obtain ⟨s', e', r'⟩ := hs.wr_nat v (i := I * B.bd + r) (by omega)
    refine ⟨s', e', r'.congr ?_⟩
    intro k hk
    by_cases hkr : k = I * B.bd + r
    · subst hkr
      rw [Function.update_self, if_pos (by omega), hv, Nat.add_sub_cancel_left]
    · rw [Function.update_of_ne hkr]
      simp only [show (I * B.bd ≤ k ∧ k < I * B.bd + (r + 1)) ↔ (I * B.bd ≤ k ∧ k < I * B.bd + r) by
        omega]
  unfold bsrGnStore
  by_cases hb : beta = 0
  · rw [if_neg (by simpa using hb)]
    apply hfin
    simp only [bsrElt, bsrSum, bsrPlus, if_pos hb, hd]
    by_cases ha : alpha = 1 <;> simp [ha]
  · rw [if_pos (by simpa using hb)]
    rw [hp, hs.rd_nat (by omega), if_neg (by omega), ← hp]
    simp only [Option.bind_eq_bind, Option.bind_some]
    apply hfin
    simp only [bsrElt, bsrSum, bsrPlus, if_neg hb, hd]
    by_cases ha : alpha = 1 <;> simp [ha]

/-- the accumulation over the blocks of a block row -/
theorem bsrAcc_val {B : Bsr R} (h : B.WF) {x : List R} {I : Nat} (hI : I < B.mb)
    {body : Int → Int → List R → Option (List R)}
    (hb : ∀ k : Nat, k < B.hi I → AddsP B.bd (body (k : Int) (B.col k + B.base)) (bsrBlockPairs true B x k)) :
    ∃ s, forC (B.lo I : Int) (B.hi I : Int) (fun aj s => (rd B.ind aj).bind fun c => body aj c s)
        (List.replicate B.bd 0) = some s ∧ Rep s B.bd (fun r => dotLeft 0 (bsrPairs true B x I r)) := by
  have hle := h.lo_le_hi hI
  obtain ⟨s', e', hs'⟩ := forC_inv_off (a := (B.lo I : Int)) (n := B.hi I - B.lo I)
    (b := (B.hi I : Int))
    (f := fun aj s => (rd B.ind aj).bind fun c => body aj c s) (s := List.replicate B.bd (0 : R))
    (fun n s => Rep s B.bd (fun r => dotLeft 0 ((List.range n).flatMap fun t => bsrBlockPairs true B x (B.lo I + t) r))) (by omega)
    ⟨by simp, fun k hk => by simp [hk, dotLeft]⟩ (by
      intro n s hn hs
      rw [show (B.lo I : Int) + n = ((B.lo I + n : Nat) : Int) by push_cast; rfl,
        h.rd_ind hI (show B.lo I + n < B.hi I by omega)]
      obtain ⟨s1, e1, r1⟩ := hb (B.lo I + n) (by omega) s _ hs
      exact ⟨s1, e1, r1.congr (fun r _ => by
        rw [List.range_succ, List.flatMap_append, dotLeft_append]
        simp)⟩)
  exact ⟨s', e', hs'⟩

theorem bsrNxnRow_is {B : Bsr R} (h : B.WF) (hcm : B.rowMajor = false) {alpha beta : R} {x : List R}
    (hx : B.nb * B.bd ≤ x.length) {len : Nat} (hlen : B.mb * B.bd ≤ len) :
    BsrRowIs .unrolled B alpha beta x len
      (bsrNxnRow (decide (alpha ≠ 1)) (decide (beta ≠ 0)) alpha beta B.base B.bd B.val B.ind B.ptr x) := by
  intro I y f hI hy
  unfold bsrNxnRow
  rw [h.rd_ptr (I := I) (by omega) rfl, h.rd_ptr (I := I + 1) (by omega) (by push_cast; rfl)]
  simp only [Option.bind_eq_bind, Option.bind_some]
  rw [h.lo_cast (by omega), h.hi_cast hI]
  have hrow : (I + 1) * B.bd ≤ B.mb * B.bd := Nat.mul_le_mul_right _ hI
  rw [Nat.succ_mul] at hrow
  obtain ⟨s, e, hs⟩ := bsrAcc_val h (x := x) hI
    (body := fun aj c s => bsrCompute B.bd B.val x B.bd (((B.bd * B.bd : Nat) : Int) * aj)
      ((B.bd : Int) * (c - B.base)) s) (by
      intro k hk
      have hvl := (h.blk hI hk).2.2
      rw [Nat.succ_mul] at hvl
      have hc := h.ind_range k (h.blk hI hk).1
      refine (bsrCompute_addsP (Rep.of_list B.val 0) (Rep.of_list x 0) (row := B.bd) B.bd
        (k * (B.bd * B.bd)) ((B.col k).toNat * B.bd) (by omega) (h.x_pos hI hk hx)).congr ?_ ?_
      · intro y
        rw [show ((k * (B.bd * B.bd) : Nat) : Int) = ((B.bd * B.bd : Nat) : Int) * (k : Int) by
            push_cast; ring,
          show (((B.col k).toNat * B.bd : Nat) : Int) = (B.bd : Int) * (B.col k + B.base - B.base) by
            push_cast; rw [Int.toNat_of_nonneg hc.1]; ring]
      · intro r _
        unfold bsrBlockPairs Bsr.elem Bsr.pos
        rw [hcm]
        simp only [Bool.false_eq_true, if_false, if_true, Nat.add_assoc])
  simp only [e, Option.bind_some]
  have hp : (I : Int) * B.bd = ((I * B.bd : Nat) : Int) := by push_cast; rfl
  rw [hp]
  -- alpha
  obtain ⟨s1, e1, r1⟩ : ∃ s1, onlyIf (decide (alpha ≠ 1)) (bsrAlpha alpha B.bd 0) s
      = some s1 ∧ Rep s1 B.bd (fun r => if decide (alpha ≠ 1) = true then dotLeft 0 (bsrPairs true B x I r) * alpha
        else dotLeft 0 (bsrPairs true B x I r)) := by
    unfold onlyIf
    by_cases ha : decide (alpha ≠ 1) = true
    · simp only [ha, if_true]
      obtain ⟨s1, e1, r1⟩ := bsrAlpha_rep alpha B.bd 0 (by omega) s _ hs
      exact ⟨s1, e1, r1.congr (fun k hk => by rw [if_pos (by omega)])⟩
    · simp only [ha, if_false]
      exact ⟨s, rfl, hs⟩
  rw [e1, Option.bind_some]
  obtain ⟨s2, e2, r2⟩ : ∃ s2, onlyIf (decide (beta ≠ 0)) (bsrBeta beta y ((I * B.bd : Nat) : Int) B.bd) s1 = some s2 ∧
      Rep s2 B.bd (fun r => bsrElt .unrolled alpha beta B x (f (I * B.bd + r)) I r) := by
    unfold onlyIf
    by_cases hb : decide (beta ≠ 0) = true
    · simp only [hb, if_true]
      obtain ⟨s2, e2, r2⟩ := bsrBeta_rep beta hy B.bd (le_refl _) (yo := I * B.bd) (by omega) s1 _ r1
      refine ⟨s2, e2, r2.congr (fun k hk => ?_)⟩
      rw [if_pos hk]
      have hb : beta ≠ 0 := of_decide_eq_true hb
      simp only [bsrElt, bsrSum, bsrPlus, if_neg hb]
      by_cases ha : alpha = 1 <;> simp [ha]
    · simp only [hb]
      refine ⟨s1, rfl, r1.congr (fun k hk => ?_)⟩
      have hb : beta = 0 := by simpa using hb
      simp only [bsrElt, bsrSum, bsrPlus, if_pos hb]
      by_cases ha : alpha = 1 <;> simp [ha]
  rw [e2, Option.bind_some]
  obtain ⟨y', e3, r3⟩ := bsrStore_rep r2 B.bd (le_refl _) (yo := I * B.bd) (yl := len) (by omega) y f hy
  refine ⟨y', e3, r3.congr (fun k hk => ?_)⟩
  by_cases hk' : I * B.bd ≤ k ∧ k < I * B.bd + B.bd
  · rw [if_pos hk', if_pos hk', show I * B.bd + (k - I * B.bd) = k by omega]
  · rw [if_neg hk', if_neg hk']

theorem bsrVecRow_is {B : Bsr R} (h : B.WF) (hcm : B.rowMajor = false) {alpha beta : R} {x : List R}
    (hx : B.nb * B.bd ≤ x.length) {len K : Nat} (hlen : B.mb * B.bd ≤ len) (hK : K ∣ B.bd) :
    BsrRowIs .vector B alpha beta x len
      (bsrVecRow K (decide (alpha ≠ 1)) (decide (beta ≠ 0)) alpha beta B.base B.bd B.val B.ind B.ptr x) := by
  intro I y f hI hy
  unfold bsrVecRow
  rw [h.rd_ptr (I := I) (by omega) rfl, h.rd_ptr (I := I + 1) (by omega) (by push_cast; rfl)]
  simp only [Option.bind_eq_bind, Option.bind_some]
  rw [h.lo_cast (by omega), h.hi_cast hI]
  have hq : B.bd / K * K = B.bd := Nat.div_mul_cancel hK
  have hrow : (I + 1) * B.bd ≤ B.mb * B.bd := Nat.mul_le_mul_right _ hI
  rw [Nat.succ_mul] at hrow
  obtain ⟨s, e, hs⟩ := bsrAcc_val h (x := x) hI
    (body := fun aj c s => bsrComputeV K B.bd B.val x (((B.bd * B.bd : Nat) : Int) * aj)
      ((B.bd : Int) * (c - B.base)) B.bd s) (by
      intro k hk
      have hvl := (h.blk hI hk).2.2
      rw [Nat.succ_mul] at hvl
      have hc := h.ind_range k (h.blk hI hk).1
      refine (bsrComputeV_addsP (Rep.of_list B.val 0) (Rep.of_list x 0) (K := K) (blk := B.bd)
        (o := k * (B.bd * B.bd)) (xo := (B.col k).toNat * B.bd) hK (by omega)
        (h.x_pos hI hk hx) B.bd (le_refl _)).congr ?_ ?_
      · intro y
        rw [show ((k * (B.bd * B.bd) : Nat) : Int) = ((B.bd * B.bd : Nat) : Int) * (k : Int) by
            push_cast; ring,
          show (((B.col k).toNat * B.bd : Nat) : Int) = (B.bd : Int) * (B.col k + B.base - B.base) by
            push_cast; rw [Int.toNat_of_nonneg hc.1]; ring]
      · intro r _
        rw [map_range_rev (fun c => (B.val.getD (k * (B.bd * B.bd) + c * B.bd + r) 0,
          x.getD ((B.col k).toNat * B.bd + c) 0)) B.bd]
        unfold bsrBlockPairs Bsr.elem Bsr.pos
        rw [hcm]
        simp only [Bool.false_eq_true, if_false, if_true, Nat.add_assoc])
  simp only [e, Option.bind_some]
  have hp : (I : Int) * B.bd = ((I * B.bd : Nat) : Int) := by push_cast; rfl
  rw [hp]
  obtain ⟨s1, e1, r1⟩ : ∃ s1, onlyIf (decide (alpha ≠ 1)) (bsrAlphaV K alpha (B.bd / K) 0) s
      = some s1 ∧ Rep s1 B.bd (fun r => if decide (alpha ≠ 1) = true then dotLeft 0 (bsrPairs true B x I r) * alpha
        else dotLeft 0 (bsrPairs true B x I r)) := by
    unfold onlyIf
    by_cases ha : decide (alpha ≠ 1) = true
    · simp only [ha, if_true]
      obtain ⟨s1, e1, r1⟩ := bsrAlphaV_rep (K := K) alpha (B.bd / K) 0 (by omega) s _ hs
      exact ⟨s1, e1, r1.congr (fun k hk => by rw [if_pos (by omega)])⟩
    · simp only [ha, if_false]
      exact ⟨s, rfl, hs⟩
  rw [e1, Option.bind_some]
  obtain ⟨s2, e2, r2⟩ : ∃ s2, onlyIf (decide (beta ≠ 0))
        (bsrBetaV K beta y (B.bd / K) 0 ((I * B.bd : Nat) : Int)) s1 = some s2 ∧
      Rep s2 B.bd (fun r => bsrElt .vector alpha beta B x (f (I * B.bd + r)) I r) := by
    unfold onlyIf
    by_cases hb : decide (beta ≠ 0) = true
    · simp only [hb, if_true]
      obtain ⟨s2, e2, r2⟩ := bsrBetaV_repP (K := K) beta hy (B.bd / K) 0 (I * B.bd) (by omega) (by omega)
        s1 _ r1
      refine ⟨s2, e2, r2.congr (fun k hk => ?_)⟩
      rw [if_pos (by omega), Nat.sub_zero]
      have hb : beta ≠ 0 := of_decide_eq_true hb
      simp only [bsrElt, bsrSum, bsrPlus, if_neg hb]
      by_cases ha : alpha = 1 <;> simp [ha]
    · simp only [hb]
      refine ⟨s1, rfl, r1.congr (fun k hk => ?_)⟩
      have hb : beta = 0 := by simpa using hb
      simp only [bsrElt, bsrSum, bsrPlus, if_pos hb]
      by_cases ha : alpha = 1 <;> simp [ha]
  rw [e2, Option.bind_some]
  obtain ⟨y', e3, r3⟩ := bsrStoreV_rep (K := K) r2 (B.bd / K) 0 (I * B.bd) (yl := len) (by omega)
    (by omega) y f hy
  refine ⟨y', e3, r3.congr (fun k hk => ?_)⟩
  rw [hq]
  by_cases hk' : I * B.bd ≤ k ∧ k < I * B.bd + B.bd
  · rw [if_pos hk', if_pos hk', Nat.zero_add, show I * B.bd + (k - I * B.bd) = k by omega]
  · rw [if_neg hk', if_neg hk']

/-- how the selected kernel computes an element -/
def _root_.Verif.Model.BsrKer.way : BsrKer → BsrWay
  | .gn => .general
  | .nxn _ => .unrolled
  | .vec _ _ => .vector

theorem bsrKernel_is {B : Bsr R} (h : B.WF) (hcm : B.rowMajor = false) {alpha beta : R} {x : List R}
    (hx : B.nb * B.bd ≤ x.length) {len : Nat} (hlen : B.mb * B.bd ≤ len) (ty : ScalarTy) (a5 : Bool) :
    BsrRowIs (bsrKernel ty a5 B.bd).way B alpha beta x len
      (bsrKerRow (bsrKernel ty a5 B.bd) (decide (alpha ≠ 1)) (decide (beta ≠ 0)) alpha beta B.base B.bd
        B.val B.ind B.ptr x) := by
  have hgn := bsrGnRow_is h hcm (alpha := alpha) (beta := beta) hx hlen
  have hnx := bsrNxnRow_is h hcm (alpha := alpha) (beta := beta) hx hlen
  have hvec := fun K => bsrVecRow_is h hcm (alpha := alpha) (beta := beta) (K := K) hx hlen
  have hv : ∀ K d, B.bd = d → K ∣ d → BsrRowIs (BsrKer.vec K d).way B alpha beta x len
      (bsrKerRow (.vec K d) (decide (alpha ≠ 1)) (decide (beta ≠ 0)) alpha beta B.base B.bd
        B.val B.ind B.ptr x) := by
    rintro K d rfl hd
    exact hvec K hd
  have hn : BsrRowIs (BsrKer.nxn (B.bd : Int).toNat).way B alpha beta x len
      (bsrKerRow (.nxn (B.bd : Int).toNat) (decide (alpha ≠ 1)) (decide (beta ≠ 0)) alpha beta B.base
        B.bd B.val B.ind B.ptr x) := by
    simp only [Int.toNat_natCast]
    exact hnx
  unfold bsrKernel
  split
  · cases ty <;> simp only
    · split
      · exact hv _ _ (by omega) (by decide)
      · split
        · exact hv _ _ (by omega) (by cases a5 <;> decide)
        · exact hn
    · split
      · exact hv _ _ (by omega) (by decide)
      · split
        · exact hv _ _ (by omega) (by cases a5 <;> decide)
        · split
          · exact hv _ _ (by omega) (by cases a5 <;> decide)
          · exact hn
    · exact hn
    · exact hn
  · exact hgn

theorem bsrKernel_way (ty : ScalarTy) (a5 : Bool) (bd : Nat) : (bsrKernel ty a5 bd).way = bsrWay ty bd := by
  by_cases h : bd ≤ 16
  · have hd : ∀ bd : Nat, bd < 17 → (bsrKernel ty a5 bd).way = bsrWay ty bd := by
      cases ty <;> cases a5 <;> decide
    exact hd bd (by omega)
  · unfold bsrKernel bsrWay
    rw [if_neg (by omega), if_neg (by omega)]
    rfl

theorem bsrRows_is {way : BsrWay} {B : Bsr R} (h : B.WF) {alpha beta : R} {x y : List R}
    (hlen : B.mb * B.bd ≤ y.length) {body : Int → List R → Option (List R)}
    (hb : BsrRowIs way B alpha beta x y.length body) :
    ∃ y', forC 0 (B.mb : Int) body y = some y' ∧
      Rep y' y.length (fun k => if k < B.mb * B.bd then
        bsrElt way alpha beta B x (y.getD k 0) (k / B.bd) (k % B.bd) else y.getD k 0) := by
  obtain ⟨y', e, hy'⟩ := forC_inv_nat (n := B.mb) (f := body) (s := y)
    (P := fun I s => Rep s y.length (fun k => if k < I * B.bd then
      bsrElt way alpha beta B x (y.getD k 0) (k / B.bd) (k % B.bd) else y.getD k 0))
    ((Rep.of_list y 0).congr (fun k _ => by simp)) (by
      intro I s hI hs
      obtain ⟨s', e', r'⟩ := hb I s _ hI hs
      refine ⟨s', e', r'.congr (fun k hk => ?_)⟩
      rw [Nat.succ_mul]
      by_cases h1 : k < I * B.bd
      · rw [if_neg (by omega), if_pos h1, if_pos (by omega)]
      · by_cases h2 : k < I * B.bd + B.bd
        · have hdiv : k / B.bd = I := by
            rw [Nat.div_eq_iff h.bd_pos]
            constructor
            · rw [Nat.mul_comm] at h1 ⊢; omega
            · have := h.bd_pos; omega
          have hmod : k % B.bd = k - I * B.bd := by
            have := Nat.div_add_mod' k B.bd
            rw [hdiv] at this
            omega
          rw [if_pos (by omega), if_neg h1, if_pos h2, hdiv, hmod]
        · rw [if_neg (by omega), if_neg h1, if_neg h2])
  exact ⟨y', e, hy'⟩

end

end Verif
