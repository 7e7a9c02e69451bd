/-
C33: the level-1 functions touch exactly the indexed elements, on every kernel.
-/
import Verif.Proofs.Level1
import Verif.Spec.Level1Exact
import Mathlib.Algebra.Ring.Defs
import Mathlib.Algebra.BigOperators.Ring.Finset
import Mathlib.Data.Rat.Star

namespace Verif
open Model Finset

variable {R : Type}

/-! ### specification -/

/-- where element `k` lives in the full vector: at `stride * k`, or at `indx[k]` -/
def Model.Idx.At : Idx → Nat → Nat
  | .strided s, k => s.toNat * k
  | .indexed xi, k => ((xi.getD []).getD k 0).toNat

/-- the first `N` elements are located inside a full vector of `ny` elements -/
def Model.Idx.Valid : Idx → Nat → Nat → Prop
  | .strided s, N, ny => 0 ≤ s ∧ ∀ k, k < N → s.toNat * k < ny
  | .indexed none, _, _ => False
  | .indexed (some xi), N, ny => ∀ k, k < N → ∃ p, xi[k]? = some p ∧ 0 ≤ p ∧ p < ny

/-- the first `N` elements are at different places -/
def Model.Idx.Distinct (ix : Idx) (N : Nat) : Prop :=
  ∀ i j, i < N → j < N → ix.At i = ix.At j → i = j

/-- registers hold at least one element -/
def Model.L1Ker.Ok : L1Ker → Prop
  | .ref => True
  | .kt T => 0 < T

/-- registers hold at least one element and add up what they are given -/
def Model.DotKer.Ok [CommSemiring R] : DotKer R → Prop
  | .ref => True
  | .kt T V => V.Ok T

theorem posOk {ix : Idx} {N ny : Nat} (h : ix.Valid N ny) : PosOk ix N ny ix.At := by
  intro k hk
  cases ix with
  | strided s =>
    have h0 := h.1
    refine ⟨?_, h.2 k hk⟩
    simp only [Idx.pos, Idx.At, Option.some.injEq]
    push_cast
    rw [Int.toNat_of_nonneg h0]
  | indexed xi =>
    cases xi with
    | none => exact h.elim
    | some xi =>
      obtain ⟨p, h1, h2, h3⟩ := h k hk
      have hg : xi.getD k 0 = p := by rw [List.getD_eq_getElem?_getD, h1]; rfl
      refine ⟨?_, ?_⟩
      · simp only [Idx.pos, Option.bind_some, rd_ofNat, h1, Idx.At, Option.getD_some, hg]
        rw [Int.toNat_of_nonneg h2]
      · simp only [Idx.At, Option.getD_some, hg]
        omega

section lemmas
variable {ix : Idx} {N : Nat} {x y x' y' : List R} {F G : Nat → R} {d : R}

theorem XDone.final (h : XDone F (fun k => x.getD k d) x.length N x') (hN : N ≤ x.length) :
    x'.length = x.length ∧ (∀ k, k < N → x'[k]? = some (F k)) ∧ ∀ k, N ≤ k → x'[k]? = x[k]? := by
  refine ⟨h.1, ?_, ?_⟩
  · intro k hk
    rw [Rep.getElem? h (by omega), if_pos hk]
  · intro k hk
    by_cases hk2 : k < x.length
    · rw [Rep.getElem? h hk2, if_neg (by omega)]
      simp [hk2]
    · rw [List.getElem?_eq_none (by rw [h.1]; omega), List.getElem?_eq_none (by omega)]

theorem YDone.final (h : YDone G ix.At (fun k => y.getD k d) y.length N y') (hv : ix.Valid N y.length) :
    y'.length = y.length ∧
    (∀ k, k < N → (∀ k', k < k' → k' < N → ix.At k' ≠ ix.At k) → y'[ix.At k]? = some (G k)) ∧
    ∀ q, (∀ k, k < N → ix.At k ≠ q) → y'[q]? = y[q]? := by
  obtain ⟨yf', r, h1, h2⟩ := h
  refine ⟨r.1, ?_, ?_⟩
  · intro k hk hl
    rw [r.getElem? ((posOk hv k hk).2), h1 k hk hl]
  · intro q hq
    by_cases hq2 : q < y.length
    · rw [r.getElem? hq2, h2 q hq]
      simp [hq2]
    · rw [List.getElem?_eq_none (by rw [r.1]; omega), List.getElem?_eq_none (by omega)]

end lemmas

/-! ### gather -/

/-- **C33, gather.**  On every kernel, for positions inside `y` (repeated ones allowed), `x[k]` becomes
the element of `y` at the position of element `k` for `k < N`, and nothing else changes. -/
theorem C33_gather [Zero R] {ker : L1Ker} (hk : ker.Ok) {ix : Idx} {N : Nat} {x y : List R}
    (hv : ix.Valid N y.length) (hx : N ≤ x.length) :
    ∃ x', gthr (some ker) false N (some y) (some x) ix = some (.success, some x', some y) ∧
      x'.length = x.length ∧ (∀ k, k < N → x'[k]? = y[ix.At k]?) ∧ ∀ k, N ≤ k → x'[k]? = x[k]? := by
  have hP := posOk hv
  have hy := Rep.of_list y (0 : R)
  set F : Nat → R := fun k => y.getD (ix.At k) 0 with hF
  have one : ∀ (k : Nat) (s : List R × List R), k < N →
      (XDone F (fun k => x.getD k 0) x.length k s.1 ∧ y = s.2) →
      ∃ s', gthrOne false ix k s = some s' ∧ XDone F (fun k => x.getD k 0) x.length (k + 1) s'.1 ∧ y = s'.2 := by
    rintro k ⟨xs, ys⟩ hk ⟨hd, rfl⟩
    obtain ⟨x1, e1, d1⟩ := hd.write (by omega : k < x.length)
    refine ⟨(x1, y), ?_, d1, rfl⟩
    unfold gthrOne zeroAt
    rw [(hP k hk).1]
    simp only [Option.bind_eq_bind, Option.bind_some]
    rw [hy.rd_nat (hP k hk).2, Option.bind_some]
    rw [show y.getD (ix.At k) 0 = F k from rfl, e1]
    rfl
  have run : ∃ x', gthrKernel ker false N y x ix = some (.success, x', y) ∧
      XDone F (fun k => x.getD k 0) x.length N x' := by
    cases ker with
    | ref =>
      obtain ⟨s', e, d, rfl⟩ := forE_ok (n := N) (f := gthrRefBody false ix) (s := (x, y))
        (P := fun k s => XDone F (fun k => x.getD k 0) x.length k s.1 ∧ y = s.2)
        ⟨XDone.zero (Rep.of_list x 0), rfl⟩ (by
          intro k s hk hs
          obtain ⟨s', e, d⟩ := one k s hk hs
          refine ⟨s', ?_, d⟩
          unfold gthrOne at e
          unfold gthrRefBody
          rw [(hP k hk).1] at e ⊢
          simp only [Option.bind_eq_bind, Option.bind_some] at e ⊢
          rw [not_bad hP hk]
          simp only [Bool.false_eq_true, if_false]
          revert e
          cases rd s.2 (ix.At k : Int) <;> simp
          rename_i v
          cases wr s.1 (k : Int) v <;> simp
          cases zeroAt false s.2 (ix.At k : Int) <;> simp)
      refine ⟨s'.1, ?_, d⟩
      unfold gthrKernel
      dsimp only
      rw [e]
      rfl
    | kt T =>
      obtain ⟨s', e, d, rfl⟩ := blocked_inv (T := T) (n := N) hk (blk := gthrBlk false ix T)
        (one := gthrOne false ix) (s := (x, y))
        (fun k s => XDone F (fun k => x.getD k 0) x.length k s.1 ∧ y = s.2)
        ⟨XDone.zero (Rep.of_list x 0), rfl⟩ (by
          rintro i ⟨xs, ys⟩ hi ⟨hd, rfl⟩
          obtain ⟨x1, e1, d1⟩ := hd.block (T := T) (by omega)
          refine ⟨(x1, y), ?_, d1, rfl⟩
          unfold gthrBlk
          rw [lanes_ok hP hi]
          simp only [Option.bind_eq_bind, Option.bind_some]
          rw [vgather_ok hy (fun l => ix.At (i * T + l)) (fun l hl => (hP _ (by omega)).2), Option.bind_some,
            cast_mul]
          have : (List.range T).map (fun l => y.getD (ix.At (i * T + l)) 0)
            = (List.range T).map fun l => F (i * T + l) := rfl
          rw [this, e1, Option.bind_some]
          unfold zeroBlk
          cases ix <;> rfl) one
      refine ⟨s'.1, ?_, d⟩
      unfold gthrKernel
      dsimp only
      rw [e]
      rfl
  obtain ⟨x', e, d⟩ := run
  obtain ⟨f1, f2, f3⟩ := d.final hx
  have hF' : ∀ k, k < N → x'[k]? = y[ix.At k]? := by
    intro k hk
    rw [f2 k hk, hF]
    have := (hP k hk).2
    simp [this]
  unfold gthr
  rw [if_neg (by omega)]
  by_cases h0 : (N : Int) = 0
  · rw [if_pos h0]
    have hN0 : N = 0 := by omega
    subst hN0
    refine ⟨x, rfl, rfl, fun k hk => absurd hk (by omega), fun _ _ => rfl⟩
  · rw [if_neg h0]
    refine ⟨x', ?_, f1, hF', f3⟩
    cases ix with
    | strided s =>
      dsimp only
      rw [if_neg (by have := hv.1; omega)]
      unfold gthr.run
      dsimp only
      rw [e]
      rfl
    | indexed xi =>
      cases xi with
      | none => exact hv.elim
      | some xi =>
        dsimp only
        unfold gthr.run
        dsimp only
        rw [e]
        rfl

/-- **C33, gather with zeroing.**  On every kernel, for distinct positions inside `y` given by an index
array: as gather, and exactly the gathered positions of `y` become zero. -/
theorem C33_gatherz [Zero R] {ker : L1Ker} (hk : ker.Ok) {xi : List Int} {N : Nat} {x y : List R}
    (hv : (Idx.indexed (some xi)).Valid N y.length) (hd : (Idx.indexed (some xi)).Distinct N)
    (hx : N ≤ x.length) :
    ∃ x' y', gthr (some ker) true N (some y) (some x) (.indexed (some xi))
        = some (.success, some x', some y') ∧
      x'.length = x.length ∧ (∀ k, k < N → x'[k]? = y[(Idx.indexed (some xi)).At k]?) ∧
      (∀ k, N ≤ k → x'[k]? = x[k]?) ∧
      y'.length = y.length ∧ (∀ k, k < N → y'[(Idx.indexed (some xi)).At k]? = some 0) ∧
      ∀ q, (∀ k, k < N → (Idx.indexed (some xi)).At k ≠ q) → y'[q]? = y[q]? := by
  have hP := posOk hv
  set ix := Idx.indexed (some xi) with hix
  set F : Nat → R := fun k => y.getD (ix.At k) 0 with hF
  let Q : Nat → List R × List R → Prop := fun k s => XDone F (fun k => x.getD k 0) x.length k s.1 ∧
    YDone (fun _ => 0) ix.At (fun k => y.getD k 0) y.length k s.2
  have h00 : Q 0 (x, y) := ⟨XDone.zero (Rep.of_list x 0), YDone.zero (Rep.of_list y 0)⟩
  have one : ∀ (k : Nat) (s : List R × List R), k < N → Q k s → ∃ s', gthrOne true ix k s = some s' ∧ Q (k + 1) s' := by
    rintro k ⟨xs, ys⟩ hk ⟨hd1, hd2⟩
    obtain ⟨x1, e1, d1⟩ := hd1.write (by omega : k < x.length)
    obtain ⟨y1, e2, d2⟩ := hd2.write (hP k hk).2
    refine ⟨(x1, y1), ?_, d1, d2⟩
    unfold gthrOne zeroAt
    rw [(hP k hk).1]
    simp only [Option.bind_eq_bind, Option.bind_some, if_true]
    rw [hd2.read (hP k hk).2 (fun j hj he => absurd (hd j k (by omega) hk he) (by omega)), Option.bind_some]
    rw [show y.getD (ix.At k) 0 = F k from rfl, e1]
    simp only [Option.bind_some]
    rw [e2]
    rfl
  have run : ∃ s', gthrKernel ker true N y x ix = some (.success, s') ∧ Q N s' := by
    cases ker with
    | ref =>
      obtain ⟨s', e, d⟩ := forE_ok (n := N) (f := gthrRefBody true ix) (s := (x, y)) (P := Q) h00 (by
          intro k s hk hs
          obtain ⟨s', e, d⟩ := one k s hk hs
          refine ⟨s', ?_, d⟩
          unfold gthrOne at e
          unfold gthrRefBody
          rw [(hP k hk).1] at e ⊢
          simp only [Option.bind_eq_bind, Option.bind_some] at e ⊢
          rw [not_bad hP hk]
          simp only [Bool.false_eq_true, if_false]
          revert e
          cases rd s.2 (ix.At k : Int) <;> simp
          rename_i v
          cases wr s.1 (k : Int) v <;> simp
          cases zeroAt true s.2 (ix.At k : Int) <;> simp)
      refine ⟨s', ?_, d⟩
      unfold gthrKernel
      dsimp only
      rw [e]
      rfl
    | kt T =>
      obtain ⟨s', e, d⟩ := blocked_inv (T := T) (n := N) hk (blk := gthrBlk true ix T)
        (one := gthrOne true ix) (s := (x, y)) Q h00 (by
          rintro i ⟨xs, ys⟩ hi ⟨hd1, hd2⟩
          obtain ⟨x1, e1, d1⟩ := hd1.block (T := T) (by omega)
          obtain ⟨y1, e2, d2⟩ := hd2.block (T := T) (fun l hl => (hP _ (by omega)).2)
          refine ⟨(x1, y1), ?_, d1, d2⟩
          unfold gthrBlk
          rw [lanes_ok hP hi]
          simp only [Option.bind_eq_bind, Option.bind_some]
          rw [hd2.gather (fun l hl => (hP _ (by omega)).2)
            (fun l hl j hj he => absurd (hd j _ (by omega) (by omega) he) (by omega)), Option.bind_some,
            cast_mul]
          have : (List.range T).map (fun l => y.getD (ix.At (i * T + l)) 0)
            = (List.range T).map fun l => F (i * T + l) := rfl
          rw [this, e1, Option.bind_some]
          unfold zeroBlk
          rw [hix]
          simp only [if_true]
          rw [← hix]
          have h2 : (List.replicate T (0 : R)) = (List.range T).map fun _ => 0 := by simp
          rw [h2, e2]
          rfl) one
      refine ⟨s', ?_, d⟩
      unfold gthrKernel
      dsimp only
      rw [e]
      rfl
  obtain ⟨⟨x', y'⟩, e, d1, d2⟩ := run
  obtain ⟨f1, f2, f3⟩ := d1.final hx
  obtain ⟨g1, g2, g3⟩ := d2.final hv
  have hF' : ∀ k, k < N → x'[k]? = y[ix.At k]? := by
    intro k hk
    rw [f2 k hk, hF]
    have := (hP k hk).2
    simp [this]
  have g2' : ∀ k, k < N → y'[ix.At k]? = some 0 := fun k hk => g2 k hk
    (fun k' h1 h2 he => absurd (hd k' k h2 hk he) (by omega))
  unfold gthr
  rw [if_neg (by omega)]
  by_cases h0 : (N : Int) = 0
  · rw [if_pos h0]
    have hN0 : N = 0 := by omega
    subst hN0
    exact ⟨x, y, rfl, rfl, fun k hk => absurd hk (by omega), fun _ _ => rfl, rfl,
      fun k hk => absurd hk (by omega), fun _ _ => rfl⟩
  · rw [if_neg h0]
    refine ⟨x', y', ?_, f1, hF', f3, g1, g2', g3⟩
    rw [hix]
    dsimp only
    unfold gthr.run
    dsimp only
    rw [e]
    rfl

/-! ### scatter -/

/-- **C33, scatter.**  On every kernel, for positions inside `y`: every position named by the index
vector (or the positive stride) receives the last of the elements meant for it, in particular `x[k]`
if the position is named once, and nothing else changes. -/
theorem C33_scatter [Inhabited R] {ker : L1Ker} (hk : ker.Ok) {ix : Idx} {N : Nat} {x y : List R}
    (hv : ix.Valid N y.length) (hs : ∀ s, ix = .strided s → 0 < s) (hx : N ≤ x.length) :
    ∃ y', sctr (some ker) N (some x) ix (some y) = some (.success, some y') ∧
      y'.length = y.length ∧
      (∀ k, k < N → (∀ k', k < k' → k' < N → ix.At k' ≠ ix.At k) → y'[ix.At k]? = x[k]?) ∧
      ∀ q, (∀ k, k < N → ix.At k ≠ q) → y'[q]? = y[q]? := by
  have hP := posOk hv
  have hxr := Rep.of_list x (default : R)
  set G : Nat → R := fun k => x.getD k default with hG
  let Q : Nat → List R → Prop := fun k s => YDone G ix.At (fun k => y.getD k default) y.length k s
  have h00 : Q 0 y := YDone.zero (Rep.of_list y default)
  have one : ∀ (k : Nat) (s : List R), k < N → Q k s → ∃ s', sctrOne x ix k s = some s' ∧ Q (k + 1) s' := by
    intro k ys hk hd2
    obtain ⟨y1, e2, d2⟩ := YDone.write hd2 (hP k hk).2
    refine ⟨y1, ?_, d2⟩
    unfold sctrOne
    rw [(hP k hk).1]
    simp only [Option.bind_eq_bind, Option.bind_some]
    rw [hxr.rd_nat (by omega : k < x.length)]
    exact e2
  have run : ∃ s', sctrKernel ker N x ix y = some (.success, s') ∧ Q N s' := by
    cases ker with
    | ref =>
      obtain ⟨s', e, d⟩ := forE_ok (n := N) (f := sctrRefBody x ix) (s := y) (P := Q) h00 (by
          intro k s hk hs
          obtain ⟨s', e, d⟩ := one k s hk hs
          refine ⟨s', ?_, d⟩
          unfold sctrOne at e
          unfold sctrRefBody
          rw [(hP k hk).1] at e ⊢
          simp only [Option.bind_eq_bind, Option.bind_some] at e ⊢
          rw [not_bad hP hk]
          simp only [Bool.false_eq_true, if_false]
          revert e
          cases rd x (k : Int) <;> simp
          rename_i v
          cases wr s (ix.At k : Int) v <;> simp)
      refine ⟨s', ?_, d⟩
      unfold sctrKernel
      dsimp only
      rw [e]
      rfl
    | kt T =>
      obtain ⟨s', e, d⟩ := blocked_inv (T := T) (n := N) hk (blk := sctrBlk x ix T)
        (one := sctrOne x ix) (s := y) Q h00 (by
          intro i ys hi hd2
          obtain ⟨y1, e2, d2⟩ := YDone.block (T := T) hd2 (fun l hl => (hP _ (by omega)).2)
          refine ⟨y1, ?_, d2⟩
          unfold sctrBlk
          rw [lanes_ok hP hi, cast_mul, vload_rep hxr (by omega) (by push_cast at *; omega)]
          simp only [Option.bind_eq_bind, Option.bind_some, Int.toNat_natCast]
          exact e2) one
      refine ⟨s', ?_, d⟩
      unfold sctrKernel
      dsimp only
      rw [e]
      rfl
  obtain ⟨y', e, d2⟩ := run
  obtain ⟨g1, g2, g3⟩ := YDone.final d2 hv
  have g2' : ∀ k, k < N → (∀ k', k < k' → k' < N → ix.At k' ≠ ix.At k) → y'[ix.At k]? = x[k]? := by
    intro k hk hl
    rw [g2 k hk hl, hG]
    have : k < x.length := by omega
    simp [this]
  unfold sctr
  dsimp only
  by_cases h0 : (N : Int) = 0
  · rw [if_pos h0]
    have hN0 : N = 0 := by omega
    subst hN0
    exact ⟨y, rfl, rfl, fun k hk => absurd hk (by omega), fun _ _ => rfl⟩
  · rw [if_neg h0, if_neg (by omega)]
    refine ⟨y', ?_, g1, g2', g3⟩
    cases ix with
    | strided s =>
      dsimp only
      rw [if_neg (by have := hs s rfl; omega)]
      unfold sctr.run
      dsimp only
      rw [e]
      rfl
    | indexed xi =>
      cases xi with
      | none => exact hv.elim
      | some xi =>
        dsimp only
        unfold sctr.run
        dsimp only
        rw [e]
        rfl

/-- **C33, gather after scatter.**  Scattering a packed vector to distinct positions and gathering it
back gives the packed vector, whichever kernels run. -/
theorem C33_gather_scatter [Zero R] {ker ker' : L1Ker} (hk : ker.Ok) (hk' : ker'.Ok) {ix : Idx} {x y z : List R}
    (hv : ix.Valid x.length y.length) (hs : ∀ s, ix = .strided s → 0 < s) (hd : ix.Distinct x.length)
    (hz : z.length = x.length) :
    ∃ y', sctr (some ker) x.length (some x) ix (some y) = some (.success, some y') ∧
      gthr (some ker') false x.length (some y') (some z) ix = some (.success, some x, some y') := by
  haveI : Inhabited R := ⟨0⟩
  obtain ⟨y', e, l, h1, h2⟩ := C33_scatter hk hv hs (le_refl _)
  obtain ⟨x', e', l', h1', h2'⟩ := C33_gather hk' (y := y') (x := z) (N := x.length) (by rw [l]; exact hv) (by omega)
  refine ⟨y', e, ?_⟩
  rw [e']
  have : x' = x := by
    apply List.ext_getElem?
    intro k
    by_cases hkl : k < x.length
    · rw [h1' k hkl, h1 k hkl (fun k' a b he => absurd (hd k' k b hkl he) (by omega))]
    · rw [List.getElem?_eq_none (by omega), List.getElem?_eq_none (by omega)]
  rw [this]

/-! ### axpyi -/

/-- **C33, axpyi.**  On every kernel, for distinct positions inside `y`: `y[indx[k]]` becomes
`a * x[k] + y[indx[k]]` and nothing else changes. -/
theorem C33_axpyi [Zero R] [Add R] [Mul R] {ker : L1Ker} (hk : ker.Ok) {xi : List Int} {N : Nat} {x y : List R} (a : R)
    (hv : (Idx.indexed (some xi)).Valid N y.length) (hd : (Idx.indexed (some xi)).Distinct N)
    (hx : N ≤ x.length) :
    ∃ y', axpyi (some ker) N (some a) (some x) (some xi) (some y) = some (.success, some y') ∧
      y'.length = y.length ∧
      (∀ k, k < N → y'[(Idx.indexed (some xi)).At k]?
        = some (a * x.getD k 0 + y.getD ((Idx.indexed (some xi)).At k) 0)) ∧
      ∀ q, (∀ k, k < N → (Idx.indexed (some xi)).At k ≠ q) → y'[q]? = y[q]? := by
  have hP := posOk hv
  set ix := Idx.indexed (some xi) with hix
  have hxr := Rep.of_list x (0 : R)
  set G : Nat → R := fun k => a * x.getD k 0 + y.getD (ix.At k) 0 with hG
  let Q : Nat → List R → Prop := fun k s => YDone G ix.At (fun k => y.getD k 0) y.length k s
  have h00 : Q 0 y := YDone.zero (Rep.of_list y 0)
  have one : ∀ (k : Nat) (s : List R), k < N → Q k s → ∃ s', axpyiOne a x ix k s = some s' ∧ Q (k + 1) s' := by
    intro k ys hk hd2
    obtain ⟨y1, e2, d2⟩ := YDone.write hd2 (hP k hk).2
    refine ⟨y1, ?_, d2⟩
    unfold axpyiOne
    rw [(hP k hk).1]
    simp only [Option.bind_eq_bind, Option.bind_some]
    rw [hxr.rd_nat (by omega : k < x.length), Option.bind_some,
      YDone.read hd2 (hP k hk).2 (fun j hj he => absurd (hd j k (by omega) hk he) (by omega)), Option.bind_some]
    exact e2
  have run : ∃ s', axpyiKernel ker N a x ix y = some (.success, s') ∧ Q N s' := by
    cases ker with
    | ref =>
      obtain ⟨s', e, d⟩ := forE_ok (n := N) (f := axpyiRefBody a x ix) (s := y) (P := Q) h00 (by
          intro k s hk hs
          obtain ⟨s', e, d⟩ := one k s hk hs
          refine ⟨s', ?_, d⟩
          unfold axpyiRefBody
          rw [(hP k hk).1, e]
          simp)
      refine ⟨s', ?_, d⟩
      unfold axpyiKernel
      dsimp only
      rw [e]
      rfl
    | kt T =>
      obtain ⟨s', e, d⟩ := blocked_inv (T := T) (n := N) hk (blk := axpyiBlk a x ix T)
        (one := axpyiOne a x ix) (s := y) Q h00 (by
          intro i ys hi hd2
          obtain ⟨y1, e2, d2⟩ := YDone.block (T := T) hd2 (fun l hl => (hP _ (by omega)).2)
          refine ⟨y1, ?_, d2⟩
          unfold axpyiBlk
          rw [lanes_ok hP hi, cast_mul, vload_rep hxr (by omega) (by push_cast at *; omega)]
          simp only [Option.bind_eq_bind, Option.bind_some, Int.toNat_natCast]
          rw [YDone.gather hd2 (fun l hl => (hP _ (by omega)).2)
            (fun l hl j hj he => absurd (hd j _ (by omega) (by omega) he) (by omega)), Option.bind_some,
            zipWith_range_map]
          exact e2) one
      refine ⟨s', ?_, d⟩
      unfold axpyiKernel
      dsimp only
      rw [e]
      rfl
  obtain ⟨y', e, d2⟩ := run
  obtain ⟨g1, g2, g3⟩ := YDone.final d2 hv
  unfold axpyi
  dsimp only
  by_cases h0 : (N : Int) = 0
  · rw [if_pos h0]
    have hN0 : N = 0 := by omega
    subst hN0
    exact ⟨y, rfl, rfl, fun k hk => absurd hk (by omega), fun _ _ => rfl⟩
  · rw [if_neg h0, if_neg (by omega)]
    refine ⟨y', ?_, g1, fun k hk => g2 k hk
      (fun k' h1 h2 he => absurd (hd k' k h2 hk he) (by omega)), g3⟩
    rw [← hix, e]
    rfl

/-- rotation, whatever the laws of the arithmetic -/
theorem roti_value [Zero R] [Add R] [Mul R] [Sub R] {ker : L1Ker} (hk : ker.Ok) {xi : List Int} {N : Nat} {x y : List R} (c s : R)
    (hv : (Idx.indexed (some xi)).Valid N y.length) (hd : (Idx.indexed (some xi)).Distinct N)
    (hx : N ≤ x.length) :
    ∃ x' y', roti (some ker) N (some x) (some xi) (some y) c s = some (.success, some x', some y') ∧
      x'.length = x.length ∧
      (∀ k, k < N → x'[k]? = some (rotX ker N k c s (x.getD k 0) (y.getD ((Idx.indexed (some xi)).At k) 0))) ∧
      (∀ k, N ≤ k → x'[k]? = x[k]?) ∧
      y'.length = y.length ∧
      (∀ k, k < N → y'[(Idx.indexed (some xi)).At k]?
        = some (c * y.getD ((Idx.indexed (some xi)).At k) 0 - s * x.getD k 0)) ∧
      ∀ q, (∀ k, k < N → (Idx.indexed (some xi)).At k ≠ q) → y'[q]? = y[q]? := by
  have hP := posOk hv
  set ix := Idx.indexed (some xi) with hix
  set F : Nat → R := fun k => rotX ker N k c s (x.getD k 0) (y.getD (ix.At k) 0) with hF
  set G : Nat → R := fun k => c * y.getD (ix.At k) 0 - s * x.getD k 0 with hG
  let Q : Nat → List R × List R → Prop := fun k t => XDone F (fun k => x.getD k 0) x.length k t.1 ∧
    YDone G ix.At (fun k => y.getD k 0) y.length k t.2
  have h00 : Q 0 (x, y) := ⟨XDone.zero (Rep.of_list x 0), YDone.zero (Rep.of_list y 0)⟩
  have one : ∀ (k : Nat) (t : List R × List R), k < N →
      rotX ker N k c s (x.getD k 0) (y.getD (ix.At k) 0) = c * x.getD k 0 + s * y.getD (ix.At k) 0 →
      Q k t → ∃ t', rotiOne c s ix k t = some t' ∧ Q (k + 1) t' := by
    rintro k ⟨xs, ys⟩ hk hrot ⟨hd1, hd2⟩
    obtain ⟨x1, e1, d1⟩ := hd1.write (by omega : k < x.length)
    obtain ⟨y1, e2, d2⟩ := hd2.write (hP k hk).2
    refine ⟨(x1, y1), ?_, d1, d2⟩
    unfold rotiOne
    rw [(hP k hk).1]
    simp only [Option.bind_eq_bind, Option.bind_some]
    rw [hd1.read (le_refl _) (by omega), Option.bind_some,
      hd2.read (hP k hk).2 (fun j hj he => absurd (hd j k (by omega) hk he) (by omega)), Option.bind_some]
    rw [show c * x.getD k 0 + s * y.getD (ix.At k) 0 = F k from hrot.symm, e1, Option.bind_some]
    rw [show c * y.getD (ix.At k) 0 - s * x.getD k 0 = G k from rfl, e2]
    rfl
  have run : ∃ t', rotiKernel ker N x ix y c s = some (.success, t') ∧ Q N t' := by
    cases ker with
    | ref =>
      obtain ⟨t', e, d⟩ := forE_ok (n := N) (f := rotiRefBody c s ix) (s := (x, y)) (P := Q) h00 (by
          intro k t hk ht
          obtain ⟨t', e, d⟩ := one k t hk rfl ht
          refine ⟨t', ?_, d⟩
          unfold rotiRefBody
          rw [(hP k hk).1, e]
          simp)
      refine ⟨t', ?_, d⟩
      unfold rotiKernel
      dsimp only
      rw [e]
      rfl
    | kt T =>
      obtain ⟨t', e, d⟩ := blocked_inv_tail (T := T) (n := N) hk (blk := rotiBlk c s ix T)
        (one := rotiOne c s ix) (s := (x, y)) Q h00 (by
          rintro i ⟨xs, ys⟩ hi ⟨hd1, hd2⟩
          obtain ⟨x1, e1, d1⟩ := hd1.block (T := T) (by omega)
          obtain ⟨y1, e2, d2⟩ := hd2.block (T := T) (fun l hl => (hP _ (by omega)).2)
          refine ⟨(x1, y1), ?_, d1, d2⟩
          unfold rotiBlk
          rw [lanes_ok hP hi, cast_mul, hd1.load (by omega)]
          simp only [Option.bind_eq_bind, Option.bind_some]
          rw [hd2.gather (fun l hl => (hP _ (by omega)).2)
            (fun l hl j hj he => absurd (hd j _ (by omega) (by omega) he) (by omega)), Option.bind_some,
            List.map_map, List.map_map, zipWith_range_map, zipWith_range_map]
          have a1 : (List.range T).map (fun l => s * y.getD (ix.At (i * T + l)) 0
              + ((fun x => c * x) ∘ fun l => x.getD (i * T + l) 0) l)
            = (List.range T).map fun l => F (i * T + l) := by
            apply List.map_congr_left
            intro l hl
            have hlT : l < T := List.mem_range.1 hl
            have hlt : i * T + l < N / T * T := by
              have h1 : i + 1 ≤ N / T := (Nat.le_div_iff_mul_le hk).2 (by rw [Nat.succ_mul]; omega)
              have h2 := Nat.mul_le_mul_right T h1
              rw [Nat.succ_mul] at h2
              omega
            rw [hF]
            simp only [Function.comp, rotX, if_pos hlt]
          have a2 : (List.range T).map (fun l => c * y.getD (ix.At (i * T + l)) 0
              - ((fun x => s * x) ∘ fun l => x.getD (i * T + l) 0) l)
            = (List.range T).map fun l => G (i * T + l) := rfl
          rw [a1, a2, e1, Option.bind_some, e2]
          rfl) (fun k t h1 h2 h3 => one k t h2 (by
            simp only [rotX]
            rw [if_neg (by omega)]) h3)
      refine ⟨t', ?_, d⟩
      unfold rotiKernel
      dsimp only
      rw [e]
      rfl
  obtain ⟨⟨x', y'⟩, e, d1, d2⟩ := run
  obtain ⟨f1, f2, f3⟩ := d1.final hx
  obtain ⟨g1, g2, g3⟩ := d2.final hv
  unfold roti
  dsimp only
  by_cases h0 : (N : Int) = 0
  · rw [if_pos h0]
    have hN0 : N = 0 := by omega
    subst hN0
    exact ⟨x, y, rfl, rfl, fun k hk => absurd hk (by omega), fun _ _ => rfl, rfl,
      fun k hk => absurd hk (by omega), fun _ _ => rfl⟩
  · rw [if_neg h0, if_neg (by omega)]
    refine ⟨x', y', ?_, f1, f2, f3, g1, fun k hk => g2 k hk
      (fun k' h1 h2 he => absurd (hd k' k h2 hk he) (by omega)), g3⟩
    rw [← hix, e]
    rfl

section arith
variable [CommRing R]

/-- **C33, Givens rotation.**  On every kernel, for distinct positions inside `y`: each pair
`(x[k], y[indx[k]])` is rotated and nothing else changes. -/
theorem C33_roti {ker : L1Ker} (hk : ker.Ok) {xi : List Int} {N : Nat} {x y : List R} (c s : R)
    (hv : (Idx.indexed (some xi)).Valid N y.length) (hd : (Idx.indexed (some xi)).Distinct N)
    (hx : N ≤ x.length) :
    ∃ x' y', roti (some ker) N (some x) (some xi) (some y) c s = some (.success, some x', some y') ∧
      x'.length = x.length ∧
      (∀ k, k < N → x'[k]? = some (c * x.getD k 0 + s * y.getD ((Idx.indexed (some xi)).At k) 0)) ∧
      (∀ k, N ≤ k → x'[k]? = x[k]?) ∧
      y'.length = y.length ∧
      (∀ k, k < N → y'[(Idx.indexed (some xi)).At k]?
        = some (c * y.getD ((Idx.indexed (some xi)).At k) 0 - s * x.getD k 0)) ∧
      ∀ q, (∀ k, k < N → (Idx.indexed (some xi)).At k ≠ q) → y'[q]? = y[q]? := by
  obtain ⟨x', y', e, h1, h2, h⟩ := roti_value hk c s hv hd hx
  refine ⟨x', y', e, h1, fun k hk' => ?_, h⟩
  rw [h2 k hk']
  unfold rotX
  cases ker with
  | ref => rfl
  | kt T =>
    dsimp only
    split
    · rw [add_comm]
    · rfl

end arith

/-! ### dot products -/

section dot
variable [CommSemiring R]

theorem dot_blocked {N T : Nat} {V : Vec R} (hV : V.Ok T) {blk : Int → V.σ → Option V.σ}
    {one : Int → R → Option R} {a b : Nat → R}
    (hblk : ∀ (i : Nat) acc, i * T + T ≤ N → blk i acc = some (V.fma
      (((List.range T).map fun l => a (i * T + l)).zip ((List.range T).map fun l => b (i * T + l))) acc))
    (hone : ∀ (k : Nat) d, k < N → one k d = some (d + a k * b k)) :
    (do
      let acc ← forC 0 ((N : Int).tdiv T) blk V.zero
      forC ((N : Int) - (N : Int).tmod T) N one (V.hsum acc)) = some (∑ k ∈ range N, a k * b k) := by
  obtain ⟨hT, Inv, i0, hs0, hstep⟩ := hV
  have hd : (N : Int).tdiv (T : Int) = ((N / T : Nat) : Int) := by
    rw [Int.tdiv_eq_ediv_of_nonneg (by omega)]; rfl
  have hm : (N : Int).tmod (T : Int) = ((N % T : Nat) : Int) := by
    rw [Int.tmod_eq_emod_of_nonneg (by omega)]; rfl
  have hdm : N / T * T + N % T = N := by rw [Nat.mul_comm]; exact Nat.div_add_mod N T
  obtain ⟨acc, e1, q1, q2⟩ := forC_inv_nat (n := N / T) (f := blk) (s := V.zero)
    (P := fun i acc => Inv acc ∧ V.hsum acc = ∑ k ∈ range (i * T), a k * b k)
    ⟨i0, by simpa using hs0⟩ (by
      intro i acc hi ⟨h1, h2⟩
      have hle : (i + 1) * T ≤ N := le_trans (Nat.mul_le_mul_right T hi) (by omega)
      rw [Nat.add_mul, Nat.one_mul] at hle
      refine ⟨_, hblk i acc hle, ?_⟩
      obtain ⟨s1, s2⟩ := hstep (((List.range T).map fun l => a (i * T + l)).zip
        ((List.range T).map fun l => b (i * T + l))) acc (by simp) h1
      refine ⟨s1, ?_⟩
      rw [s2, h2, Nat.add_mul, Nat.one_mul, sum_range_add, List.zip_map', List.map_map]
      congr 1)
  obtain ⟨d, e2, r⟩ := forC_inv_off (a := (N : Int) - ((N % T : Nat) : Int)) (b := N) (n := N % T)
    (f := one) (s := V.hsum acc) (P := fun t d => d = ∑ k ∈ range (N / T * T + t), a k * b k) (by omega) q2 (by
      intro t s ht hs
      refine ⟨_, ?_, rfl⟩
      rw [show (N : Int) - ((N % T : Nat) : Int) + (t : Int) = ((N / T * T + t : Nat) : Int) by
        have : (N : Int) = ((N / T * T + N % T : Nat) : Int) := by rw [hdm]
        push_cast at this ⊢; omega]
      rw [hone _ _ (by omega), hs, ← Nat.add_assoc, sum_range_succ])
  rw [hd, hm, e1, Option.bind_eq_bind, Option.bind_some, e2, r, hdm]

/-- **C33, sparse dot products.**  On every kernel the result is the sum of the products (with the
packed vector conjugated in the conjugated variants). -/
theorem C33_dot {ker : DotKer R} (hk : ker.Ok) (cj : R → R) {xi : List Int} {N : Nat} {x y : List R}
    (hv : (Idx.indexed (some xi)).Valid N y.length) (hN : 0 < N) (hx : N ≤ x.length) (conj : Bool) (g : R) :
    dotp (some ker) cj N (some x) (some xi) (some y) (some g) conj
      = some (.success, some (∑ k ∈ range N, (if conj then cj (x.getD k 0) else x.getD k 0)
          * y.getD ((Idx.indexed (some xi)).At k) 0)) := by
  have hP := posOk hv
  set ix := Idx.indexed (some xi) with hix
  have hxr := Rep.of_list x (0 : R)
  have hyr := Rep.of_list y (0 : R)
  set cx : R → R := if conj then cj else id with hcx
  have hone : ∀ (k : Nat) d, k < N → dotiOne cx x ix y k d = some (d + cx (x.getD k 0) * y.getD (ix.At k) 0) := by
    intro k d hk
    unfold dotiOne
    rw [(hP k hk).1]
    simp only [Option.bind_eq_bind, Option.bind_some]
    rw [hxr.rd_nat (by omega : k < x.length), Option.bind_some, hyr.rd_nat (hP k hk).2]
    rfl
  have key : dotiKernel ker cx N x ix y = some (∑ k ∈ range N, cx (x.getD k 0) * y.getD (ix.At k) 0) := by
    cases ker with
    | ref =>
      obtain ⟨d, e, h⟩ := forC_inv_nat (n := N) (f := dotiOne cx x ix y) (s := 0)
        (P := fun i d => d = ∑ k ∈ range i, cx (x.getD k 0) * y.getD (ix.At k) 0) (by simp) (by
          intro i d hi hd
          exact ⟨_, hone i d hi, by rw [hd, sum_range_succ]⟩)
      unfold dotiKernel
      dsimp only
      rw [e, h]
    | kt T V =>
      unfold dotiKernel
      dsimp only
      exact dot_blocked (a := fun k => cx (x.getD k 0)) (b := fun k => y.getD (ix.At k) 0) hk (by
        intro i acc hi
        unfold dotiBlk
        rw [lanes_ok hP hi, cast_mul, vload_rep hxr (by omega) (by push_cast at *; omega)]
        simp only [Option.bind_eq_bind, Option.bind_some, Int.toNat_natCast]
        rw [vgather_ok hyr (fun l => ix.At (i * T + l)) (fun l hl => (hP _ (by omega)).2), Option.bind_some,
          List.map_map]
        rfl) hone
  unfold dotp
  dsimp only
  rw [if_neg (by omega), key]
  simp only [Option.map_some]
  congr 3
  cases conj <;> rfl

/-- the real functions return that sum -/
theorem C33_doti {ker : DotKer R} (hk : ker.Ok) {xi : List Int} {N : Nat} {x y : List R}
    (hv : (Idx.indexed (some xi)).Valid N y.length) (hN : 0 < N) (hx : N ≤ x.length) (g : R) :
    doti (some ker) g N (some x) (some xi) (some y)
      = some (∑ k ∈ range N, x.getD k 0 * y.getD ((Idx.indexed (some xi)).At k) 0) := by
  unfold doti
  rw [C33_dot hk id hv hN hx false g]
  rfl

/-- with no entries (or a negative count) the dot product is set to zero, whatever it held, and the
call reports an invalid size -/
theorem C33_dot_empty (ker : Option (DotKer R)) (cj : R → R) {nnz : Int} (h : nnz ≤ 0)
    (x : Option (List R)) (xi : Option (List Int)) (y : Option (List R)) (g : R) (conj : Bool) :
    dotp ker cj nnz x xi y (some g) conj = some (.invalidSize, some 0) := by
  unfold dotp
  simp [h]

/-- dot product of dense vectors, the first one conjugated -/
theorem denseDot_ok {ker : DotKer R} (hk : ker.Ok) (cj : R → R) {N : Nat} {x y : List R}
    (hx : N ≤ x.length) (hy : N ≤ y.length) :
    denseDot ker cj N x y = some (∑ k ∈ range N, cj (x.getD k 0) * y.getD k 0) := by
  have hxr := Rep.of_list x (0 : R)
  have hyr := Rep.of_list y (0 : R)
  have hone : ∀ (k : Nat) d, k < N → ddotOne cj x y k d = some (d + cj (x.getD k 0) * y.getD k 0) := by
    intro k d hk
    unfold ddotOne
    rw [hxr.rd_nat (by omega : k < x.length), hyr.rd_nat (by omega : k < y.length)]
    rfl
  cases ker with
  | ref =>
    obtain ⟨d, e, h⟩ := forC_inv_nat (n := N) (f := ddotOne cj x y) (s := 0)
      (P := fun i d => d = ∑ k ∈ range i, cj (x.getD k 0) * y.getD k 0) (by simp) (by
        intro i d hi hd
        exact ⟨_, hone i d hi, by rw [hd, sum_range_succ]⟩)
    unfold denseDot
    dsimp only
    rw [e, h]
  | kt T V =>
    unfold denseDot
    dsimp only
    exact dot_blocked (a := fun k => cj (x.getD k 0)) (b := fun k => y.getD k 0) hk (by
      intro i acc hi
      unfold ddotBlk
      rw [cast_mul, vload_rep hxr (by omega) (by push_cast at *; omega),
        vload_rep hyr (by omega) (by push_cast at *; omega)]
      simp only [Option.bind_eq_bind, Option.bind_some, Int.toNat_natCast]
      rw [List.map_map]
      rfl) hone

end dot

/-! ### rejected calls -/

theorem forEN_error {σ ε : Type} {f : Int → σ → Option (Except ε σ)} {Q : ε → Prop}
    (h : ∀ i s e, f i s = some (.error e) → Q e) :
    ∀ n i s e, forEN f n i s = some (.error e) → Q e
  | 0, i, s, e, he => by simp [forEN] at he
  | n + 1, i, s, e, he => by
    unfold forEN at he
    cases hf : f i s with
    | none => rw [hf] at he; simp at he
    | some r =>
      rw [hf] at he
      cases r with
      | error e' =>
        simp only [Option.some.injEq, Except.error.injEq] at he
        exact he ▸ h i s e' hf
      | ok s' => exact forEN_error h n (i + 1) s' e he

theorem gthrKernel_status [Zero R] {k : L1Ker} {z : Bool} {nnz : Int} {x y : List R} {ix : Idx} {r}
    (h : gthrKernel k z nnz y x ix = some r) : r.1 = .success ∨ r.1 = .invalidIndexValue := by
  unfold gthrKernel at h
  cases k with
  | ref =>
    simp only [Option.map_eq_some_iff] at h
    obtain ⟨q, hq, rfl⟩ := h
    cases q with
    | ok s => exact .inl rfl
    | error e =>
      refine .inr (forEN_error (Q := fun e => e.1 = .invalidIndexValue) ?_ _ _ _ _ hq)
      intro i s e he
      unfold gthrRefBody at he
      simp only [Option.bind_eq_bind, Option.bind_eq_some_iff] at he
      obtain ⟨p, _, he⟩ := he
      split at he
      · simp only [Option.some.injEq, Except.error.injEq] at he
        rw [← he]
      · simp only [Option.bind_eq_some_iff] at he
        obtain ⟨_, _, _, _, _, _, he⟩ := he
        simp at he
  | kt T =>
    simp only [Option.map_eq_some_iff] at h
    obtain ⟨q, hq, rfl⟩ := h
    exact .inl rfl

theorem sctrKernel_status {k : L1Ker} {nnz : Int} {x y : List R} {ix : Idx} {r}
    (h : sctrKernel k nnz x ix y = some r) : r.1 = .success ∨ r.1 = .invalidIndexValue := by
  unfold sctrKernel at h
  cases k with
  | ref =>
    simp only [Option.map_eq_some_iff] at h
    obtain ⟨q, hq, rfl⟩ := h
    cases q with
    | ok s => exact .inl rfl
    | error e =>
      refine .inr (forEN_error (Q := fun e => e.1 = .invalidIndexValue) ?_ _ _ _ _ hq)
      intro i s e he
      unfold sctrRefBody at he
      simp only [Option.bind_eq_bind, Option.bind_eq_some_iff] at he
      obtain ⟨p, _, he⟩ := he
      split at he
      · simp only [Option.some.injEq, Except.error.injEq] at he
        rw [← he]
      · simp only [Option.bind_eq_some_iff] at he
        obtain ⟨_, _, _, _, he⟩ := he
        simp at he
  | kt T =>
    simp only [Option.map_eq_some_iff] at h
    obtain ⟨q, hq, rfl⟩ := h
    exact .inl rfl

theorem axpyiKernel_status [Add R] [Mul R] {k : L1Ker} {nnz : Int} {a : R} {x y : List R} {ix : Idx} {r}
    (h : axpyiKernel k nnz a x ix y = some r) : r.1 = .success ∨ r.1 = .invalidIndexValue := by
  unfold axpyiKernel at h
  cases k with
  | ref =>
    simp only [Option.map_eq_some_iff] at h
    obtain ⟨q, hq, rfl⟩ := h
    cases q with
    | ok s => exact .inl rfl
    | error e =>
      refine .inr (forEN_error (Q := fun e => e.1 = .invalidIndexValue) ?_ _ _ _ _ hq)
      intro i s e he
      unfold axpyiRefBody at he
      simp only [Option.bind_eq_bind, Option.bind_eq_some_iff] at he
      obtain ⟨p, _, he⟩ := he
      split at he
      · simp only [Option.some.injEq, Except.error.injEq] at he
        rw [← he]
      · simp only [Option.bind_eq_some_iff] at he
        obtain ⟨_, _, he⟩ := he
        simp at he
  | kt T =>
    simp only [Option.map_eq_some_iff] at h
    obtain ⟨q, hq, rfl⟩ := h
    exact .inl rfl

theorem rotiKernel_status [Add R] [Mul R] [Sub R] {k : L1Ker} {nnz : Int} {c s : R} {x y : List R} {ix : Idx} {r}
    (h : rotiKernel k nnz x ix y c s = some r) : r.1 = .success ∨ r.1 = .invalidIndexValue := by
  unfold rotiKernel at h
  cases k with
  | ref =>
    simp only [Option.map_eq_some_iff] at h
    obtain ⟨q, hq, rfl⟩ := h
    cases q with
    | ok s => exact .inl rfl
    | error e =>
      refine .inr (forEN_error (Q := fun e => e.1 = .invalidIndexValue) ?_ _ _ _ _ hq)
      intro i s e he
      unfold rotiRefBody at he
      simp only [Option.bind_eq_bind, Option.bind_eq_some_iff] at he
      obtain ⟨p, _, he⟩ := he
      split at he
      · simp only [Option.some.injEq, Except.error.injEq] at he
        rw [← he]
      · simp only [Option.bind_eq_some_iff] at he
        obtain ⟨_, _, he⟩ := he
        simp at he
  | kt T =>
    simp only [Option.map_eq_some_iff] at h
    obtain ⟨q, hq, rfl⟩ := h
    exact .inl rfl

/-- **C33, rejected calls.**  Whatever the arguments, if a call returns (without undefined behaviour)
with a status other than success and `invalid_index_value`, the vectors are untouched. -/
theorem C33_gather_rejected [Zero R] (ker : Option L1Ker) (z : Bool) (nnz : Int) (x y : Option (List R))
    (ix : Idx) {st : Status} {x' y' : Option (List R)} (h : gthr ker z nnz y x ix = some (st, x', y'))
    (h1 : st ≠ .success) (h2 : st ≠ .invalidIndexValue) : x' = x ∧ y' = y := by
  have hrun : ∀ ys xs, gthr.run ker z nnz y x ix ys xs = some (st, x', y') → x' = x ∧ y' = y := by
    intro ys xs hr
    unfold gthr.run at hr
    cases ker with
    | none =>
      simp only [Option.some.injEq, Prod.mk.injEq] at hr
      exact ⟨hr.2.1.symm, hr.2.2.symm⟩
    | some k =>
      simp only [Option.map_eq_some_iff, Prod.mk.injEq] at hr
      obtain ⟨r, hr, rfl, _⟩ := hr
      rcases gthrKernel_status hr with h | h
      · exact absurd h h1
      · exact absurd h h2
  have fin : ∀ s, some (s, x, y) = some (st, x', y') → x' = x ∧ y' = y := by
    intro s hs
    simp only [Option.some.injEq, Prod.mk.injEq] at hs
    exact ⟨hs.2.1.symm, hs.2.2.symm⟩
  unfold gthr at h
  split at h
  · exact fin _ h
  · split at h
    · exact fin _ h
    · split at h
      · split at h
        · split at h
          · exact fin _ h
          · exact hrun _ _ h
        · exact fin _ h
        · exact hrun _ _ h
      · exact fin _ h

theorem C33_scatter_rejected (ker : Option L1Ker) (nnz : Int) (x y : Option (List R))
    (ix : Idx) {st : Status} {y' : Option (List R)} (h : sctr ker nnz x ix y = some (st, y'))
    (h1 : st ≠ .success) (h2 : st ≠ .invalidIndexValue) : y' = y := by
  have hrun : ∀ xs ys, sctr.run ker nnz ix y xs ys = some (st, y') → y' = y := by
    intro ys xs hr
    unfold sctr.run at hr
    cases ker with
    | none =>
      simp only [Option.some.injEq, Prod.mk.injEq] at hr
      exact hr.2.symm
    | some k =>
      simp only [Option.map_eq_some_iff, Prod.mk.injEq] at hr
      obtain ⟨r, hr, rfl, _⟩ := hr
      rcases sctrKernel_status hr with h | h
      · exact absurd h h1
      · exact absurd h h2
  have fin : ∀ s, some (s, y) = some (st, y') → y' = y := by
    intro s hs
    simp only [Option.some.injEq, Prod.mk.injEq] at hs
    exact hs.2.symm
  unfold sctr at h
  split at h
  · split at h
    · exact fin _ h
    · split at h
      · exact fin _ h
      · split at h
        · split at h
          · exact fin _ h
          · exact hrun _ _ h
        · exact fin _ h
        · exact hrun _ _ h
  · exact fin _ h

theorem C33_axpyi_rejected [Add R] [Mul R] (ker : Option L1Ker) (nnz : Int) (a : Option R)
    (x y : Option (List R)) (indx : Option (List Int)) {st : Status} {y' : Option (List R)}
    (h : axpyi ker nnz a x indx y = some (st, y'))
    (h1 : st ≠ .success) (h2 : st ≠ .invalidIndexValue) : y' = y := by
  have fin : ∀ s, some (s, y) = some (st, y') → y' = y := by
    intro s hs
    simp only [Option.some.injEq, Prod.mk.injEq] at hs
    exact hs.2.symm
  unfold axpyi at h
  split at h
  · split at h
    · exact fin _ h
    · split at h
      · exact fin _ h
      · split at h
        · exact fin _ h
        · simp only [Option.map_eq_some_iff, Prod.mk.injEq] at h
          obtain ⟨r, hr, rfl, _⟩ := h
          rcases axpyiKernel_status hr with h | h
          · exact absurd h h1
          · exact absurd h h2
  · exact fin _ h

theorem C33_roti_rejected [Add R] [Mul R] [Sub R] (ker : Option L1Ker) (nnz : Int) (c s : R)
    (x y : Option (List R)) (indx : Option (List Int)) {st : Status} {x' y' : Option (List R)}
    (h : roti ker nnz x indx y c s = some (st, x', y'))
    (h1 : st ≠ .success) (h2 : st ≠ .invalidIndexValue) : x' = x ∧ y' = y := by
  have fin : ∀ s, some (s, x, y) = some (st, x', y') → x' = x ∧ y' = y := by
    intro s hs
    simp only [Option.some.injEq, Prod.mk.injEq] at hs
    exact ⟨hs.2.1.symm, hs.2.2.symm⟩
  unfold roti at h
  split at h
  · split at h
    · exact fin _ h
    · split at h
      · exact fin _ h
      · split at h
        · exact fin _ h
        · simp only [Option.map_eq_some_iff, Prod.mk.injEq] at h
          obtain ⟨r, hr, rfl, _⟩ := h
          rcases rotiKernel_status hr with h | h
          · exact absurd h h1
          · exact absurd h h2
  · exact fin _ h

/-- which arguments are rejected, and how (gather) -/
theorem C33_gather_status [Zero R] (ker : Option L1Ker) (z : Bool) (nnz : Int) (x y : Option (List R)) (ix : Idx) :
    (nnz < 0 → gthr ker z nnz y x ix = some (.invalidSize, x, y)) ∧
    (nnz = 0 → gthr ker z nnz y x ix = some (.success, x, y)) ∧
    (0 < nnz → (y = none ∨ x = none ∨ (x ≠ none ∧ y ≠ none ∧ ix = .indexed none)) →
      gthr ker z nnz y x ix = some (.invalidPointer, x, y)) ∧
    (0 < nnz → y ≠ none → x ≠ none → ∀ s, ix = .strided s → s < 0 →
      gthr ker z nnz y x ix = some (.invalidSize, x, y)) := by
  refine ⟨fun h => by unfold gthr; rw [if_pos h], fun h => by unfold gthr; rw [if_neg (by omega), if_pos h], ?_, ?_⟩
  · intro h hp
    unfold gthr
    rw [if_neg (by omega), if_neg (by omega)]
    rcases hp with rfl | rfl | ⟨h1, h2, rfl⟩
    · rfl
    · cases y <;> rfl
    · cases x <;> cases y <;> simp at h1 h2 ⊢
  · rintro h hy hx s rfl hs
    unfold gthr
    rw [if_neg (by omega), if_neg (by omega)]
    cases x <;> cases y <;> simp at hx hy ⊢
    omega

/-! ### negative indices -/

/-- the reference kernels check the indices: the first negative one ends the call with
`invalid_index_value`, after the elements before it were processed (shown for `axpyi`; the checks of
the other functions are the same text) -/
theorem C33_axpyi_negative [CommRing R] {xi : List Int} {N k : Nat} {x y : List R} (a : R)
    (hv : (Idx.indexed (some xi)).Valid k y.length) (hd : (Idx.indexed (some xi)).Distinct k)
    (hx : N ≤ x.length) (hk : k < N) {p : Int} (hp : xi[k]? = some p) (hneg : p < 0) :
    ∃ y', axpyi (some .ref) N (some a) (some x) (some xi) (some y) = some (.invalidIndexValue, some y') ∧
      axpyi (some .ref) k (some a) (some x) (some xi) (some y) = some (.success, some y') := by
  have hP := posOk hv
  set ix := Idx.indexed (some xi) with hix
  have hxr := Rep.of_list x (0 : R)
  set G : Nat → R := fun k => a * x.getD k 0 + y.getD (ix.At k) 0 with hG
  let Q : Nat → List R → Prop := fun j s => YDone G ix.At (fun k => y.getD k 0) y.length j s ∧
    forE 0 (j : Int) (axpyiRefBody a x ix) y = some (.ok s)
  have step : ∀ (j : Nat) (s : List R), j < k → Q j s →
      ∃ s', axpyiRefBody a x ix j s = some (.ok s') ∧ Q (j + 1) s' := by
    rintro j ys hj ⟨hd2, hrun⟩
    obtain ⟨y1, e2, d2⟩ := YDone.write hd2 (hP j hj).2
    have e3 : axpyiRefBody a x ix j ys = some (.ok y1) := by
      unfold axpyiRefBody axpyiOne
      rw [(hP j hj).1]
      simp only [Option.bind_eq_bind, Option.bind_some]
      rw [if_neg (by omega), hxr.rd_nat (by omega : j < x.length), Option.bind_some,
        YDone.read hd2 (hP j hj).2 (fun i hi he => absurd (hd i j (by omega) hj he) (by omega)), Option.bind_some]
      rw [show a * x.getD j 0 + y.getD (ix.At j) 0 = G j from rfl, e2]
      rfl
    refine ⟨y1, e3, d2, ?_⟩
    rw [forE_succ, hrun]
    exact e3
  obtain ⟨e, he, y', rfl, hq⟩ := forE_stop (n := N) hk (f := axpyiRefBody a x ix) (s := y) Q
    (fun e => ∃ y', e = (.invalidIndexValue, y') ∧ Q k y') ⟨YDone.zero (Rep.of_list y 0), rfl⟩ step (by
      intro s hs
      refine ⟨(.invalidIndexValue, s), ?_, s, rfl, hs⟩
      unfold axpyiRefBody
      have : ix.pos k = some p := by
        rw [hix]
        simp only [Idx.pos, Option.bind_some, rd_ofNat, hp]
      rw [this]
      simp [hneg])
  have r1 : axpyi (some .ref) N (some a) (some x) (some xi) (some y) = some (.invalidIndexValue, some y') := by
    unfold axpyi axpyiKernel
    dsimp only
    rw [if_neg (by omega), if_neg (by omega), ← hix, he]
    rfl
  refine ⟨y', r1, ?_⟩
  unfold axpyi axpyiKernel
  dsimp only
  by_cases h0 : (k : Int) = 0
  · rw [if_pos h0]
    have hk0 : k = 0 := by omega
    subst hk0
    have := hq.2
    simp only [forE, forEN, Nat.cast_zero, sub_self, Int.toNat_zero, Option.some.injEq, Except.ok.injEq] at this
    rw [this]
  · rw [if_neg h0, if_neg (by omega), ← hix, hq.2]
    rfl

/-- F28: the vector kernels do not check; a negative index makes them read and write in front of the
vector (undefined behaviour), where the documentation promises `invalid_index_value`. -/
theorem C33_negative_index_counterexample :
    gthr (some .ref) false 2 (some [1, 2, 3]) (some [0, 0]) (.indexed (some [-1, 0]))
      = some (.invalidIndexValue, some [0, 0], some ([1, 2, 3] : List Rat)) ∧
    gthr (some (.kt 2)) false 2 (some ([1, 2, 3] : List Rat)) (some [0, 0]) (.indexed (some [-1, 0])) = none ∧
    sctr (some (.kt 2)) 2 (some ([1, 2] : List Rat)) (.indexed (some [-1, 0])) (some [0, 0, 0]) = none ∧
    axpyi (some (.kt 2)) 2 (some (1 : Rat)) (some [1, 2]) (some [-1, 0]) (some [0, 0, 0]) = none ∧
    roti (some (.kt 2)) 2 (some ([1, 2] : List Rat)) (some [-1, 0]) (some [0, 0, 0]) 1 0 = none := by
  decide +kernel

/-- F29: with a repeated index `axpyi` (whose documentation does not exclude it) adds both elements on
the reference kernel but loses one of them on a vector kernel. -/
theorem C33_axpyi_repeated_counterexample :
    axpyi (some .ref) 2 (some (1 : Rat)) (some [1, 1]) (some [0, 0]) (some [0]) = some (.success, some [2]) ∧
    axpyi (some (.kt 2)) 2 (some (1 : Rat)) (some [1, 1]) (some [0, 0]) (some [0]) = some (.success, some [1]) := by
  decide +kernel

/-- F30: `sdoti`/`ddoti` with a null vector (or an invalid kernel id) return an uninitialised
variable: any value whatever. -/
theorem C33_doti_null (ker : Option (DotKer Rat)) (g : Rat) (xi : List Int) (y : List Rat) :
    doti ker g 1 none (some xi) (some y) = some g := rfl

/-! ### concrete cases -/
section witness

example : (Idx.indexed (some [3, 0, 2])).Valid 3 4 := by
  intro k hk
  match k, hk with
  | 0, _ => exact ⟨3, rfl, by decide, by decide⟩
  | 1, _ => exact ⟨0, rfl, by decide, by decide⟩
  | 2, _ => exact ⟨2, rfl, by decide, by decide⟩
example : (Idx.indexed (some [3, 0, 2])).Distinct 3 := by
  have : ∀ i, i < 3 → ∀ j, j < 3 → (Idx.indexed (some [3, 0, 2])).At i = (Idx.indexed (some [3, 0, 2])).At j → i = j := by
    decide +kernel
  exact fun i j hi hj => this i hi j hj
example : (Idx.strided 2).Valid 3 5 := ⟨by decide, by decide⟩
example : (Idx.strided 2).Distinct 3 := by
  have : ∀ i, i < 3 → ∀ j, j < 3 → (Idx.strided 2).At i = (Idx.strided 2).At j → i = j := by decide +kernel
  exact fun i j hi hj => this i hi j hj

example : gthr (some (.kt 2)) true 3 (some [1, 2, 3, 4]) (some [0, 0, 0, 9]) (.indexed (some [3, 0, 2]))
    = some (.success, some [4, 1, 3, 9], some ([0, 2, 0, 0] : List Rat)) := by decide +kernel
example : sctr (some (.kt 2)) 3 (some [7, 8, 9]) (.strided 2) (some [1, 1, 1, 1, 1])
    = some (.success, some ([7, 1, 8, 1, 9] : List Rat)) := by decide +kernel
example : roti (some (.kt 2)) 3 (some [1, 2, 3]) (some [3, 0, 2]) (some [5, 6, 7, 8]) 0 1
    = some (.success, some [8, 5, 7], some ([-2, 6, -3, -1] : List Rat)) := by decide +kernel
example : (DotKer.kt 4 (vecLanes 4 hsum4l) : DotKer Rat).Ok := vecLanes_ok (by decide) hsum4l_sum
example : doti (some (.kt 4 (vecLanes 4 hsum4l))) 99 5 (some [1, 2, 3, 4, 5]) (some [0, 1, 2, 1, 0])
    (some ([1, 10, 100] : List Rat)) = some 366 := by decide +kernel

end witness

end Verif
