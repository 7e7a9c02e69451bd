/-
The matrix-vector kernels of the ELL formats, run in three arithmetics (see Shadow.lean).
-/
import Verif.Proofs.Shadow
import Verif.Spec.Ell

namespace Verif
open Model Rounding

variable {R : Type} [Zero R] [One R] [Add R] [Mul R] [DecidableEq R]
  {ρ : Rounding} {v : R → ℝ} {fac : R → Option (ℝ × ℝ)}

theorem ellmvRef_rel (hR : Contracts ρ v fac) (h1 : v 1 = 1) {ec : List Int} {ev x y : List R}
    (hx : ∀ a ∈ x, fac a = none) (hy : ∀ a ∈ y, fac a = none) (alpha beta : R) (m w : Nat) (base : Int) :
    Opt3 (YRel ρ v fac (fun _ => w + 3) y (· < m)) (ellmvRef alpha m ev ec w base x beta y)
      (ellmvRef (v alpha) m (ev.map v) ec w base (x.map v) (v beta) (y.map v))
      (ellmvRef |v alpha| m (szs v ev) ec w base (szs v x) |v beta| (szs v y)) := by
  unfold ellmvRef
  simp only [storeRow_put]
  exact rows_rel (finS_rel hR h1 alpha beta) hy (Nat.zero_le m) (k := fun _ => w + 1) (fun i => le_rfl)
    (fun i _ => by simpa using ellRowRef_rel hR hx (w : Int) base i) (YRel.init y fun i => Nat.not_lt_zero i)

theorem dellmvAvx2_rel (hR : Contracts ρ v fac) (h1 : v 1 = 1) {ec : List Int} {ev x y : List R}
    (hx : ∀ a ∈ x, fac a = none) (hy : ∀ a ∈ y, fac a = none) (alpha beta : R) (m w : Nat) (base : Int) :
    Opt3 (YRel ρ v fac (fun _ => w / 4 + 9) y (· < m)) (dellmvAvx2 alpha m ev ec w base x beta y)
      (dellmvAvx2 (v alpha) m (ev.map v) ec w base (x.map v) (v beta) (y.map v))
      (dellmvAvx2 |v alpha| m (szs v ev) ec w base (szs v x) |v beta| (szs v y)) := by
  unfold dellmvAvx2
  simp only [storeRow_put]
  exact rows_rel (finS_rel hR h1 alpha beta) hy (Nat.zero_le m) (k := fun _ => w / 4 + 7) (fun i => le_rfl)
    (fun i _ => ellRowAvx2_rel hR hx w base i) (YRel.init y fun i => Nat.not_lt_zero i)

theorem elltmvRef_rel (hR : Contracts ρ v fac) (h1 : v 1 = 1) {ec : List Int} {ev x y : List R}
    (hx : ∀ a ∈ x, fac a = none) (hy : ∀ a ∈ y, fac a = none) (alpha beta : R) (m w : Nat) (base : Int) :
    Opt3 (YRel ρ v fac (fun _ => w + 3) y (· < m)) (elltmvRef alpha m ev ec w base x beta y)
      (elltmvRef (v alpha) m (ev.map v) ec w base (x.map v) (v beta) (y.map v))
      (elltmvRef |v alpha| m (szs v ev) ec w base (szs v x) |v beta| (szs v y)) := by
  unfold elltmvRef
  simp only [storeRow_put]
  exact rows_rel (finS_rel hR h1 alpha beta) hy (Nat.zero_le m) (k := fun _ => w + 1) (fun i => le_rfl)
    (fun i _ => by simpa using elltRow_rel hR hx (m : Int) (w : Int) base i) (YRel.init y fun i => Nat.not_lt_zero i)

/-- a loop of fused multiply-adds on four lanes -/
theorem fma4Loop_rel (hR : Contracts ρ v fac) {ind : List Int} {val x : List R} (hx : ∀ a ∈ x, fac a = none)
    (base : Int) (n : Int) (p : Int → Int) :
    Opt3 (Near4 ρ v fac (n.toNat + 1)) (forC 0 n (fun i a => fma4 ind val x base (p i) a) (0, 0, 0, 0))
      (forC 0 n (fun i a => fma4 ind (val.map v) (x.map v) base (p i) a) (0, 0, 0, 0))
      (forC 0 n (fun i a => fma4 ind (szs v val) (szs v x) base (p i) a) (0, 0, 0, 0)) := by
  have := Opt3.forC (fun k => Near4 ρ v fac (k + 1)) (lo := 0) (hi := n)
    (f := fun i a => fma4 ind val x base (p i) a) (g := fun i a => fma4 ind (val.map v) (x.map v) base (p i) a)
    (h := fun i a => fma4 ind (szs v val) (szs v x) base (p i) a) (near4_zero hR 1)
    (fun j _ a b c h => fma4_rel hR hx base _ (by omega) h)
  rwa [show n - 0 = n by omega] at this

theorem Near4.mono {k l : Nat} {a : R × R × R × R} {e s : ℝ × ℝ × ℝ × ℝ} (h : Near4 ρ v fac k a e s) (hl : k ≤ l) :
    Near4 ρ v fac l a e s := ⟨h.1.mono hl, h.2.1.mono hl, h.2.2.1.mono hl, h.2.2.2.mono hl⟩

theorem tdiv4 (m : Nat) : (m : Int).tdiv 4 = ((m / 4 : Nat) : Int) := by
  rw [Int.tdiv_eq_ediv_of_nonneg (by omega)]; omega

/-- blocks of four rows -/
theorem blocks_rel {alpha beta : R} {fin : R → R → R} {fe fs : ℝ → ℝ → ℝ} (hf : FinRel ρ v fac alpha beta fin fe fs)
    {K : Nat → Nat} {y : List R} (hy : ∀ a ∈ y, fac a = none) {n : Nat} {k : Nat} (hk : ∀ i, k + 2 ≤ K i)
    {o : Int → Option (R × R × R × R)} {oe os : Int → Option (ℝ × ℝ × ℝ × ℝ)}
    (ho : ∀ i : Nat, i < n → Opt3 (Near4 ρ v fac k) (o i) (oe i) (os i)) :
    Opt3 (YRel ρ v fac K y (· < n * 4))
      (forC 0 n (fun i y => (o i).bind fun r => (shPut fin r.1 (i * 4) y).bind fun y =>
        (shPut fin r.2.1 (i * 4 + 1) y).bind fun y => (shPut fin r.2.2.1 (i * 4 + 2) y).bind fun y =>
          shPut fin r.2.2.2 (i * 4 + 3) y) y)
      (forC 0 n (fun i y => (oe i).bind fun r => (shPut fe r.1 (i * 4) y).bind fun y =>
        (shPut fe r.2.1 (i * 4 + 1) y).bind fun y => (shPut fe r.2.2.1 (i * 4 + 2) y).bind fun y =>
          shPut fe r.2.2.2 (i * 4 + 3) y) (y.map v))
      (forC 0 n (fun i y => (os i).bind fun r => (shPut fs r.1 (i * 4) y).bind fun y =>
        (shPut fs r.2.1 (i * 4 + 1) y).bind fun y => (shPut fs r.2.2.1 (i * 4 + 2) y).bind fun y =>
          shPut fs r.2.2.2 (i * 4 + 3) y) (szs v y)) := by
  refine Opt3.mono (P := YRel ρ v fac K y (· < ((n : Int) - 0).toNat * 4)) ?_
    (Opt3.forC (fun j => YRel ρ v fac K y (· < j * 4)) (YRel.init y (by simp)) ?_)
  · intro a b c h
    simpa using h
  · intro j hj a b c h
    rw [zero_add]
    refine Opt3.bind (ho j (by omega)) fun r e s hr => ?_
    have := put4_rel hf hy hk h hr
    push_cast at this
    rwa [show j * 4 + 4 = (j + 1) * 4 by omega] at this

theorem elltmvAvx2_rel (hR : Contracts ρ v fac) (h1 : v 1 = 1) {ec : List Int} {ev x y : List R}
    (hx : ∀ a ∈ x, fac a = none) (hy : ∀ a ∈ y, fac a = none) (alpha beta : R) (m w : Nat) (base : Int) :
    Opt3 (YRel ρ v fac (fun _ => w + 3) y (· < m)) (elltmvAvx2 alpha m ev ec w base x beta y)
      (elltmvAvx2 (v alpha) m (ev.map v) ec w base (x.map v) (v beta) (y.map v))
      (elltmvAvx2 |v alpha| m (szs v ev) ec w base (szs v x) |v beta| (szs v y)) := by
  unfold elltmvAvx2
  simp only [storeRow_put, storeRow4_put]
  rw [tdiv4]
  refine Opt3.bind (blocks_rel (finB_rel hR h1 alpha beta) hy (k := w + 1) (fun i => le_rfl)
    (o := fun j => forC 0 (w : Int) (fun i a => fma4 ec ev x base (j * 4 + i * m) a) (0, 0, 0, 0))
    (oe := fun j => forC 0 (w : Int) (fun i a => fma4 ec (ev.map v) (x.map v) base (j * 4 + i * m) a) (0, 0, 0, 0))
    (os := fun j => forC 0 (w : Int) (fun i a => fma4 ec (szs v ev) (szs v x) base (j * 4 + i * m) a) (0, 0, 0, 0))
    (fun i _ => by simpa using fma4Loop_rel hR hx base (w : Int) fun t => (i : Int) * 4 + t * m)) ?_
  intro a b c h
  have := rows_rel (finS_rel hR h1 alpha beta) hy (show m / 4 * 4 ≤ m by omega) (k := fun _ => w + 1) (fun i => le_rfl)
    (row := elltRow m w base ec ev x) (rowe := elltRow m w base ec (ev.map v) (x.map v))
    (rows' := elltRow m w base ec (szs v ev) (szs v x))
    (fun i _ => by simpa using elltRow_rel hR hx (m : Int) (w : Int) base i) h
  push_cast at this
  push_cast
  exact this

/-- ELL data of a matrix and of its image -/
theorem ellContent_map {S : Type} [Zero S] {A : Csr R} {w : Nat} {off : Nat → Nat → Nat} {base : Int} {pad : Nat → Int} {m : Nat}
    {ec : List Int} {ev : List R} (f : R → S) (f0 : f 0 = 0) (h : EllContent m w off base pad A.row ec ev) :
    EllContent m w off base pad (A.mapTo f).row ec (ev.map f) where
  data i t hi ht := by
    have ht' : t < (A.row i).length := by rw [mapTo_row] at ht; simpa using ht
    obtain ⟨a, b⟩ := h.data i t hi ht'
    simp only [mapTo_row, List.getElem_map, List.getElem?_map, a, b, Option.map_some]
    exact ⟨trivial, trivial⟩
  padding i t hi ht hw := by
    obtain ⟨a, b⟩ := h.padding i t hi (by rw [mapTo_row] at ht; simpa using ht) hw
    simp only [List.getElem?_map, a, b, Option.map_some, f0]
    exact ⟨trivial, trivial⟩

end Verif
