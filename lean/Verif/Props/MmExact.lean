import Verif.Proofs.MmRound
import Verif.Proofs.MmExact4
import Verif.Proofs.RoundedSp2m2
import Verif.Props.SchedMm
import Verif.Props.Rounded

/-!
C69 — exact values, column by column reproducibility and rounding errors of sparse times dense products.
-/

namespace Verif
open Model Rounding

variable {R : Type} [Zero R] [Add R] [Mul R]

/-! ### values -/

/-- In any arithmetic, no law assumed: which operations give an element of the result, and in which
order.  The number of threads and their order do not matter. -/
theorem C69_values {cj : R → R} {alpha beta : R} {A : Csr R} {B : List R} {n ldb ldc : Nat} {w : Nat} {tm : MmTeam}
    (hT : 0 < tm.T) {ker : MmKernel R} (hker : ∀ K V, ker = .kt K V → 0 < K) {col : Bool}
    (hov : ((if col then n else A.m : Nat) : Int) * tm.T ≤ intMax w) (hord : tm.ord.Perm (List.range tm.T)) (hA : A.WF)
    (hB : ∀ l j, l < A.n → j < n → denseOff col ldb l j < B.length)
    (hldc : if col then A.m ≤ ldc else n ≤ ldc) (hn : 0 < n) {C0 : List R}
    (hC : ∀ i j : Nat, i < A.m → j < n → denseOff col ldc i j < C0.length) :
    ∃ C1 : List R, mmKernel w tm ker col (mmOf cj alpha beta A B n ldb ldc) C0 = some C1 ∧
      IsCells col A.m n ldc (fun i j c => mmElt ker col n alpha beta j (mmPairs cj col A B ldb i j) c) C0 C1 :=
  mm_values hT hker hov hord hA hB hldc hn hC

/-! ### column by column -/

/-- both columns are computed by the same code: always so, unless the layout is row-major and the kernel
a vector kernel, which treats the last `n % K` columns on their own -/
def SameCode (ker : MmKernel R) (col : Bool) (n j n' j' : Nat) : Prop :=
  match ker, col with
  | .kt K _, false => (j < K * (n / K) ↔ j' < K * (n' / K))
  | _, _ => True

/-- Two products with the same A, alpha, beta and kernel, each with its own B and C, numbers of columns,
leading dimensions and threads.  Where a column of B and an element of C agree, the results agree bit by
bit: it makes no difference whether columns are computed together or one by one. -/
theorem C69_columns {cj : R → R} {alpha beta : R} {A : Csr R} {ker : MmKernel R}
    (hker : ∀ K V, ker = .kt K V → 0 < K) {col : Bool} (hA : A.WF)
    {B : List R} {n ldb ldc : Nat} {w : Nat} {tm : MmTeam} {C0 : List R} (hT : 0 < tm.T)
    (hov : ((if col then n else A.m : Nat) : Int) * tm.T ≤ intMax w) (hord : tm.ord.Perm (List.range tm.T))
    (hB : ∀ l j, l < A.n → j < n → denseOff col ldb l j < B.length)
    (hldc : if col then A.m ≤ ldc else n ≤ ldc)
    (hC : ∀ i j : Nat, i < A.m → j < n → denseOff col ldc i j < C0.length)
    {B' : List R} {n' ldb' ldc' : Nat} {w' : Nat} {tm' : MmTeam} {C0' : List R} (hT' : 0 < tm'.T)
    (hov' : ((if col then n' else A.m : Nat) : Int) * tm'.T ≤ intMax w') (hord' : tm'.ord.Perm (List.range tm'.T))
    (hB' : ∀ l j, l < A.n → j < n' → denseOff col ldb' l j < B'.length)
    (hldc' : if col then A.m ≤ ldc' else n' ≤ ldc')
    (hC' : ∀ i j : Nat, i < A.m → j < n' → denseOff col ldc' i j < C0'.length)
    {i j j' : Nat} (hi : i < A.m) (hj : j < n) (hj' : j' < n') (hs : SameCode ker col n j n' j')
    (eB : ∀ l, l < A.n → B[denseOff col ldb l j]? = B'[denseOff col ldb' l j']?)
    (eC : C0[denseOff col ldc i j]? = C0'[denseOff col ldc' i j']?) :
    ∃ C1 C1', mmKernel w tm ker col (mmOf cj alpha beta A B n ldb ldc) C0 = some C1 ∧
      mmKernel w' tm' ker col (mmOf cj alpha beta A B' n' ldb' ldc') C0' = some C1' ∧
      C1[denseOff col ldc i j]? = C1'[denseOff col ldc' i j']? := by
  obtain ⟨C1, e, h⟩ := mm_values (cj := cj) (alpha := alpha) (beta := beta) hT hker hov hord hA hB hldc (by omega) hC
  obtain ⟨C1', e', h'⟩ := mm_values (cj := cj) (alpha := alpha) (beta := beta) hT' hker hov' hord' hA hB' hldc'
    (by omega) hC'
  refine ⟨C1, C1', e, e', ?_⟩
  rw [h.cells i j hi hj, h'.cells i j' hi hj']
  have ec : C0.getD (denseOff col ldc i j) 0 = C0'.getD (denseOff col ldc' i j') 0 := by
    rw [List.getD_eq_getElem?_getD, List.getD_eq_getElem?_getD, eC]
  have ep : mmPairs cj col A B ldb i j = mmPairs cj col A B' ldb' i j' := by
    unfold mmPairs
    apply List.map_congr_left
    intro x hx
    have := Csr.row_range hA hx
    rw [List.getD_eq_getElem?_getD, List.getD_eq_getElem?_getD, eB _ (by omega)]
  show some (mmElt ker col n alpha beta j (mmPairs cj col A B ldb i j) (C0.getD (denseOff col ldc i j) 0))
    = some (mmElt ker col n' alpha beta j' (mmPairs cj col A B' ldb' i j') (C0'.getD (denseOff col ldc' i j') 0))
  rw [ec, ep]
  cases ker with
  | ref => cases col <;> rfl
  | kt K V =>
    cases col with
    | true => rfl
    | false =>
      have hs : (j < K * (n / K) ↔ j' < K * (n' / K)) := hs
      show some (mmEltRowKt K n alpha beta _ j _) = some (mmEltRowKt K n' alpha beta _ j' _)
      unfold mmEltRowKt
      by_cases hlt : j < K * (n / K)
      · rw [if_pos hlt, if_pos (hs.1 hlt)]
      · rw [if_neg hlt, if_neg fun g => hlt (hs.2 g)]

/-! ### rounding errors -/

/-- how many roundings a kernel adds to the length of a row: `d` levels of additions of the lanes of a
register -/
inductive KerRounds : MmKernel R → Bool → Nat → Prop
  | refCol : KerRounds .ref true 3
  | refRow : KerRounds .ref false 2
  | ktCol {K d : Nat} {hs : List R → R} (hK : 0 < K) (h : AddsLanes K d hs) :
      KerRounds (.kt K (vecLanes K hs)) true (d + 4)
  | ktRow {K : Nat} {V : Vec R} (hK : 0 < K) : KerRounds (.kt K V) false 2

/-- the horizontal sums of four doubles, of eight floats and of eight doubles -/
theorem addsLanes_hsum4l : AddsLanes 4 2 (hsum4l : List R → R) := by
  refine ⟨.add (.add (.lane 0) (.lane 1)) (.add (.lane 2) (.lane 3)), by decide, by decide, fun L hL => ?_⟩
  obtain ⟨a, b, c, d, rfl⟩ := list4 hL
  rfl
theorem addsLanes_hsum8f : AddsLanes 8 3 (hsum8f : List R → R) := by
  refine ⟨.add (.add (.add (.lane 0) (.lane 4)) (.add (.lane 2) (.lane 6)))
    (.add (.add (.lane 1) (.lane 5)) (.add (.lane 3) (.lane 7))), by decide, by decide, fun L hL => ?_⟩
  obtain ⟨a, b, c, d, e, f, g, h, rfl⟩ := list8 hL
  rfl
theorem addsLanes_hsum8d : AddsLanes 8 3 (hsum8d : List R → R) := by
  refine ⟨.add (.add (.add (.lane 0) (.lane 4)) (.add (.lane 1) (.lane 5)))
    (.add (.add (.lane 2) (.lane 6)) (.add (.lane 3) (.lane 7))), by decide, by decide, fun L hL => ?_⟩
  obtain ⟨a, b, c, d, e, f, g, h, rfl⟩ := list8 hL
  rfl

section
variable {ρ : Rounding} {v : R → ℝ} {fac : R → Option (ℝ × ℝ)}

theorem mmElt_near (hR : Contracts ρ v fac) {ker : MmKernel R} {col : Bool} {q : Nat} (hk : KerRounds ker col q)
    {alpha beta c : R} (ha : fac alpha = none) (hc : fac c = none) {L : List (R × R)} (hL : PlainL fac L) (n j : Nat) :
    ρ.Near (L.length + q) (v alpha * dotV v L + v beta * v c) (|v alpha| * dotS v L + |v beta| * |v c|)
      (v (mmElt ker col n alpha beta j L c)) := by
  cases hk with
  | refCol => exact (mmEltCol_near hR hc hL).1
  | refRow => exact (mmEltRow_near hR hc ha hL).1
  | ktCol hK h => exact (mmEltColVec_near hR hK h hc hL).1
  | ktRow hK =>
    show ρ.Near _ _ _ (v (mmEltRowKt _ n alpha beta c j L))
    unfold mmEltRowKt
    split
    · exact (mmEltRowVec_near hR hc ha hL).1
    · exact (mmEltRow_near hR hc ha hL).1

omit [Add R] [Mul R] in
theorem mmPairs_sum (f : R → ℝ) {A : Csr R} (hA : A.WF) (col : Bool) (B : List R) (ldb i j : Nat) :
    ((mmPairs id col A B ldb i j).map fun ab => f ab.1 * f ab.2).sum
      = ∑ l ∈ Finset.range A.n, (A.mapTo f).mat i l * f (B.getD (denseOff col ldb l j) 0) := by
  have := filter_sum_mul ((A.mapTo f).row i) A.n (fun l => f (B.getD (denseOff col ldb l j) 0)) (by
    intro e he
    rw [mapTo_row] at he
    obtain ⟨x, hx, rfl⟩ := List.mem_map.1 he
    exact Csr.row_range hA hx)
  unfold Csr.mat Csr.entry
  refine Eq.trans ?_ this
  rw [mapTo_row]
  unfold mmPairs
  rw [List.map_map, List.map_map]
  rfl

omit [Add R] [Mul R] in
theorem mmPairs_plain {A : Csr R} (col : Bool) {B : List R} (ldb i j : Nat) (h0 : fac 0 = none)
    (hA : ∀ a ∈ A.val, fac a = none) (hB : ∀ b ∈ B, fac b = none) : PlainL fac (mmPairs id col A B ldb i j) := by
  intro ab hab
  unfold mmPairs at hab
  obtain ⟨e, he, rfl⟩ := List.mem_map.1 hab
  refine ⟨hA _ ?_, ?_⟩
  · unfold Csr.row at he
    obtain ⟨x, hx, rfl⟩ := List.mem_map.1 he
    have := List.of_mem_zip (List.mem_of_mem_drop (List.mem_of_mem_take hx))
    exact this.2
  · show fac (B.getD _ 0) = none
    rw [List.getD_eq_getElem?_getD]
    cases h : B[denseOff col ldb e.1.toNat j]? with
    | none => exact h0
    | some b => exact hB b (List.mem_of_getElem? h)

/-- **Rounding errors.**  Real data in an arithmetic that rounds every operation, and where any product may
be fused with the addition that uses it.  An element of the result differs from alpha·(A·B) + beta·C by
at most `(1 + u)^(r + q) - 1` times |alpha|·(|A|·|B|) + |beta|·|C|, where `r` is the number of entries
stored in the row and `q` a small constant of the kernel.  Elements outside the result are unchanged. -/
theorem C69_error (hR : Contracts ρ v fac) {ker : MmKernel R} {col : Bool} {q : Nat} (hk : KerRounds ker col q)
    {alpha beta : R} {A : Csr R} {B : List R} {n ldb ldc : Nat} {w : Nat} {tm : MmTeam} (hT : 0 < tm.T)
    (hov : ((if col then n else A.m : Nat) : Int) * tm.T ≤ intMax w) (hord : tm.ord.Perm (List.range tm.T)) (hA : A.WF)
    (hB : ∀ l j, l < A.n → j < n → denseOff col ldb l j < B.length)
    (hldc : if col then A.m ≤ ldc else n ≤ ldc) (hn : 0 < n) {C0 : List R}
    (hC : ∀ i j : Nat, i < A.m → j < n → denseOff col ldc i j < C0.length)
    (ha : fac alpha = none) (pA : ∀ a ∈ A.val, fac a = none) (pB : ∀ b ∈ B, fac b = none)
    (pC : ∀ c ∈ C0, fac c = none) :
    ∃ C1 : List R, mmKernel w tm ker col (mmOf id alpha beta A B n ldb ldc) C0 = some C1 ∧
      C1.length = C0.length ∧
      (∀ i j, i < A.m → j < n → ∃ c r, C0[denseOff col ldc i j]? = some c ∧ C1[denseOff col ldc i j]? = some r ∧
        |v r - (v alpha * (∑ l ∈ Finset.range A.n, (A.mapTo v).mat i l * v (B.getD (denseOff col ldb l j) 0))
            + v beta * v c)|
          ≤ ((1 + ρ.u) ^ ((A.row i).length + q) - 1) *
            (|v alpha| * (∑ l ∈ Finset.range A.n,
              (A.mapTo fun a => |v a|).mat i l * |v (B.getD (denseOff col ldb l j) 0)|) + |v beta| * |v c|)) ∧
      ∀ p, (∀ i j, i < A.m → j < n → p ≠ denseOff col ldc i j) → C1[p]? = C0[p]? := by
  obtain ⟨C1, e, h⟩ := mm_values (cj := id) (alpha := alpha) (beta := beta) hT (ker := ker) (by
    rintro K V rfl; cases hk <;> assumption) hov hord hA hB hldc hn hC
  refine ⟨C1, e, h.length, ?_, h.rest⟩
  intro i j hi hj
  have hlt := hC i j hi hj
  refine ⟨_, _, List.getElem?_eq_getElem hlt, h.cells i j hi hj, ?_⟩
  rw [List.getD_eq_getElem?_getD, List.getElem?_eq_getElem hlt, Option.getD_some]
  have := (mmElt_near hR hk (beta := beta) ha (pC _ (List.getElem_mem hlt))
    (mmPairs_plain col ldb i j hR.zero_fac pA pB) n j).2
  unfold dotV dotS at this
  rw [mmPairs_sum v hA, mmPairs_sum (fun a => |v a|) hA] at this
  have el : (mmPairs id col A B ldb i j).length = (A.row i).length := by simp [mmPairs]
  rw [el] at this
  exact this

end

/-! ### arithmetics that meet the hypotheses -/

/-- every operation rounded, no product fused -/
theorem fp_contracts (ρ : Rounding) : Contracts ρ (Fp.v : Fp ρ → ℝ) (fun _ => none) where
  zero := rfl
  zero_fac := rfl
  mul := fun _ _ => rfl
  mul_fac := fun _ _ _ _ h => by cases h
  add := fun _ _ => .inl rfl
  add_fac := fun _ _ => rfl

/-- a number that remembers its factors -/
structure FpFused (ρ : Rounding) where
  v : ℝ
  fac : Option (ℝ × ℝ)

namespace FpFused
variable {ρ : Rounding}
instance : Zero (FpFused ρ) := ⟨⟨0, none⟩⟩
noncomputable instance : Mul (FpFused ρ) := ⟨fun a b => ⟨ρ.fl (a.v * b.v), some (a.v, b.v)⟩⟩
/-- a product on the left is fused; otherwise one on the right -/
noncomputable instance : Add (FpFused ρ) := ⟨fun a b => match a.fac, b.fac with
  | some (p, q), _ => ⟨ρ.fl (p * q + b.v), none⟩
  | none, some (p, q) => ⟨ρ.fl (a.v + p * q), none⟩
  | none, none => ⟨ρ.fl (a.v + b.v), none⟩⟩
end FpFused

/-- every product fused with the addition that uses it -/
theorem fused_contracts (ρ : Rounding) : Contracts ρ (FpFused.v : FpFused ρ → ℝ) FpFused.fac where
  zero := rfl
  zero_fac := rfl
  mul := fun _ _ => rfl
  mul_fac := fun a b p q h => by cases h; exact ⟨rfl, rfl⟩
  add := fun a b => by
    obtain ⟨x, fx⟩ := a
    obtain ⟨y, fy⟩ := b
    rcases fx with _ | ⟨p, q⟩
    · rcases fy with _ | ⟨p, q⟩
      · exact .inl rfl
      · exact .inr (.inr ⟨p, q, rfl, rfl⟩)
    · exact .inr (.inl ⟨p, q, rfl, rfl⟩)
  add_fac := fun a b => by
    obtain ⟨x, fx⟩ := a
    obtain ⟨y, fy⟩ := b
    rcases fx with _ | ⟨p, q⟩
    · rcases fy with _ | ⟨p, q⟩ <;> rfl
    · rfl

/-- `C69_error` for double precision with fused operations and the kernel for four doubles: the row (2, 3)
times two columns, on two threads -/
example : ∃ C1 : List (FpFused (binary 53)),
    mmKernel 32 ⟨2, [1, 0]⟩ (.kt 4 (vecLanes 4 hsum4l)) true
      (mmOf id ⟨7, none⟩ ⟨10, none⟩ ⟨1, 2, 0, [0, 2], [0, 1], [⟨2, none⟩, ⟨3, none⟩]⟩
        (List.replicate 4 ⟨1, none⟩) 2 2 1) (List.replicate 2 ⟨5, none⟩) = some C1 ∧ C1.length = 2 := by
  obtain ⟨C1, h, hl, -, -⟩ := C69_error (ρ := binary 53) (fused_contracts (binary 53))
    (KerRounds.ktCol (K := 4) (by decide) addsLanes_hsum4l) (alpha := ⟨7, none⟩) (beta := ⟨10, none⟩)
    (A := ⟨1, 2, 0, [0, 2], [0, 1], [⟨2, none⟩, ⟨3, none⟩]⟩) (B := List.replicate 4 ⟨1, none⟩) (n := 2) (ldb := 2)
    (ldc := 1) (w := 32) (tm := ⟨2, [1, 0]⟩) (by decide) (by decide) (by decide)
    ⟨by simp, by simp, rfl, by decide, rfl, by simp, by decide⟩
    (by intro l j hl hj; simp [denseOff] at *; omega) (by decide) (by decide) (C0 := List.replicate 2 ⟨5, none⟩)
    (by intro i j hi hj; simp [denseOff] at *; omega) rfl (by simp) (by simp) (by simp)
  exact ⟨C1, h, by simpa using hl⟩

/-! ### F103 -/

/-- decimal numbers of two digits -/
structure Dig2 where
  val : Nat
deriving DecidableEq

/-- cut off all but the first two digits (numbers of up to `k + 2` digits) -/
def Dig2.cut : Nat → Nat → Nat
  | 0, z => z
  | k + 1, z => if z < 100 then z else 10 * Dig2.cut k (z / 10)

instance : Zero Dig2 := ⟨⟨0⟩⟩
instance : Add Dig2 := ⟨fun a b => ⟨Dig2.cut 8 (a.val + b.val)⟩⟩
instance : Mul Dig2 := ⟨fun a b => ⟨Dig2.cut 8 (a.val * b.val)⟩⟩

/-- F103: in row-major order the vector kernel multiplies `(alpha * a) * b` in the columns that fill its
registers and `(a * b) * alpha` in the rest.  Five equal columns of B, five equal elements of C: the fifth
column of the result differs. -/
theorem C69_row_columns_counterexample :
    mmKernel 32 ⟨1, [0]⟩ (.kt 4 (vecLanes 4 hsum4l)) false
      (mmOf id ⟨19⟩ ⟨0⟩ ⟨1, 1, 0, [0, 1], [0], [⟨19⟩]⟩ (List.replicate 5 ⟨7⟩) 5 5 5) (List.replicate 5 (⟨1⟩ : Dig2))
      = some [⟨2500⟩, ⟨2500⟩, ⟨2500⟩, ⟨2500⟩, ⟨2400⟩] := by decide +kernel

/-- and the first column has another value when it is computed alone -/
theorem C69_row_alone_counterexample :
    mmKernel 32 ⟨1, [0]⟩ (.kt 4 (vecLanes 4 hsum4l)) false
      (mmOf id ⟨19⟩ ⟨0⟩ ⟨1, 1, 0, [0, 1], [0], [⟨19⟩]⟩ [⟨7⟩] 1 1 1) [(⟨1⟩ : Dig2)] = some [⟨2400⟩] := by decide +kernel

/-- the hypotheses of `C69_columns` for the column-major kernel: two equal columns, then one alone -/
example : ∃ C1 C1' : List Dig2,
    mmKernel 32 ⟨1, [0]⟩ .ref true (mmOf id ⟨19⟩ ⟨0⟩ ⟨1, 1, 0, [0, 1], [0], [⟨19⟩]⟩ [⟨7⟩, ⟨8⟩] 2 1 1) [⟨1⟩, ⟨2⟩] = some C1 ∧
    mmKernel 32 ⟨2, [1, 0]⟩ .ref true (mmOf id ⟨19⟩ ⟨0⟩ ⟨1, 1, 0, [0, 1], [0], [⟨19⟩]⟩ [⟨8⟩] 1 1 1) [⟨2⟩] = some C1' ∧
    C1[1]? = C1'[0]? := by
  have := C69_columns (cj := id) (alpha := (⟨19⟩ : Dig2)) (beta := ⟨0⟩) (A := ⟨1, 1, 0, [0, 1], [0], [⟨19⟩]⟩)
    (ker := .ref) (by intro K V h; cases h) (col := true) (by decide +kernel) (B := [⟨7⟩, ⟨8⟩]) (n := 2) (ldb := 1)
    (ldc := 1) (w := 32) (tm := ⟨1, [0]⟩) (C0 := [⟨1⟩, ⟨2⟩]) (by decide) (by decide) (by decide)
    (by intro l j hl hj; simp [denseOff] at *; omega) (by decide)
    (by intro l j hl hj; simp [denseOff] at *; omega) (B' := [⟨8⟩]) (n' := 1) (ldb' := 1) (ldc' := 1) (w' := 32)
    (tm' := ⟨2, [1, 0]⟩) (C0' := [⟨2⟩]) (by decide) (by decide) (by decide)
    (by intro l j hl hj; simp [denseOff] at *; omega) (by decide)
    (by intro l j hl hj; simp [denseOff] at *; omega) (i := 0) (j := 1) (j' := 0) (by decide) (by decide) (by decide)
    trivial (by intro l hl; have : l = 0 := by simpa using hl
                subst this; rfl) rfl
  simpa [denseOff] using this

end Verif
