/-
The triangular solvers do not depend on the values the solution array held before: two runs side by side.
-/
import Verif.Proofs.RoundedTrsv2

namespace Verif
open Model Finset

section rel
variable {R : Type} {inc : Nat}

/-- arrays of the same length that hold the same elements `i` of the vector, for `i` in `P` -/
def Same (inc : Nat) (P : Finset Nat) (x y : List R) : Prop :=
  x.length = y.length ∧ ∀ i ∈ P, x[i * inc]? = y[i * inc]?

/-- if the first run is defined, so is the second, with the same elements in `P` -/
def Fwd (inc : Nat) (P : Finset Nat) (o o' : Option (List R)) : Prop :=
  ∀ x, o = some x → ∃ y, o' = some y ∧ Same inc P x y

theorem Same.mono {P Q : Finset Nat} {x y : List R} (h : Same inc P x y) (hQ : Q ⊆ P) : Same inc Q x y :=
  ⟨h.1, fun i hi => h.2 i (hQ hi)⟩

theorem Fwd.mono {P Q : Finset Nat} {o o' : Option (List R)} (h : Fwd inc P o o') (hQ : Q ⊆ P) : Fwd inc Q o o' := by
  intro x e
  obtain ⟨y, e', s⟩ := h x e
  exact ⟨y, e', s.mono hQ⟩

theorem Fwd.ret {P : Finset Nat} {x y : List R} (h : Same inc P x y) : Fwd inc P (some x) (some y) := by
  intro x' e
  obtain rfl := Option.some.inj e
  exact ⟨y, rfl, h⟩

theorem Fwd.bind {P Q : Finset Nat} {o o' : Option (List R)} {k k' : List R → Option (List R)}
    (h : Fwd inc Q o o') (hk : ∀ x y, Same inc Q x y → Fwd inc P (k x) (k' y)) :
    Fwd inc P (o.bind k) (o'.bind k') := by
  intro z e
  obtain ⟨x, e1, e2⟩ := Option.bind_eq_some_iff.1 e
  obtain ⟨y, e3, s⟩ := h x e1
  obtain ⟨w, e4, s'⟩ := hk x y s z e2
  exact ⟨w, by rw [e3]; exact e4, s'⟩

theorem Fwd.val {P : Finset Nat} {α : Type} {r r' : Option α} (hr : r = r') {k k' : α → Option (List R)}
    (hk : ∀ a, r = some a → Fwd inc P (k a) (k' a)) : Fwd inc P (r.bind k) (r'.bind k') := by
  subst hr
  intro z e
  obtain ⟨a, e1, e2⟩ := Option.bind_eq_some_iff.1 e
  obtain ⟨y, e3, s⟩ := hk a e1 z e2
  exact ⟨y, by rw [e1]; exact e3, s⟩

theorem Same.rd {P : Finset Nat} {x y : List R} (h : Same inc P x y) {i : Nat} (hi : i ∈ P) :
    rd x ((i : Int) * inc) = rd y ((i : Int) * inc) := by
  unfold Verif.rd
  rw [if_pos (by positivity), if_pos (by positivity), show ((i : Int) * inc).toNat = i * inc by
    rw [← Nat.cast_mul]; rfl]
  exact h.2 i hi

/-- the same value written at the same place -/
theorem Same.wr {P : Finset Nat} {x y : List R} (h : Same inc P x y) (p : Int) (v : R) :
    Fwd inc P (wr x p v) (wr y p v) := by
  intro x' e
  unfold Verif.wr at e ⊢
  split at e
  · next hc =>
    obtain rfl := Option.some.inj e
    rw [if_pos (by rw [← h.1]; exact hc)]
    refine ⟨_, rfl, by simp [h.1], fun i hi => ?_⟩
    rw [List.getElem?_set, List.getElem?_set, h.2 i hi, h.1]
  · simp at e

theorem Same.wrAt {P : Finset Nat} {x y : List R} (h : Same inc P x y) (j : Nat) (v : R) :
    Fwd inc (insert j P) (Verif.wr x ((j : Int) * inc) v) (Verif.wr y ((j : Int) * inc) v) := by
  intro x' e
  unfold Verif.wr at e ⊢
  split at e
  · next hc =>
    obtain rfl := Option.some.inj e
    rw [if_pos (by rw [← h.1]; exact hc)]
    refine ⟨_, rfl, by simp [h.1], fun i hi => ?_⟩
    rw [List.getElem?_set, List.getElem?_set, h.1]
    by_cases hij : ((j : Int) * inc).toNat = i * inc
    · rw [if_pos hij, if_pos hij]
    · rw [if_neg hij, if_neg hij]
      rcases Finset.mem_insert.1 hi with rfl | hi
      · exact absurd (by rw [← Nat.cast_mul]; rfl) hij
      · exact h.2 i hi
  · simp at e

theorem fwd_forN {P : Int → Finset Nat} {f : Int → List R → Option (List R)} :
    ∀ (n : Nat) (lo : Int) {x y : List R}, (∀ i x y, lo ≤ i → i < lo + n → Same inc (P i) x y →
      Fwd inc (P (i + 1)) (f i x) (f i y)) → Same inc (P lo) x y → Fwd inc (P (lo + n)) (forN f n lo x) (forN f n lo y)
  | 0, lo, x, y, _, h => by
    have := Fwd.ret h
    simpa [forN] using this
  | n + 1, lo, x, y, hs, h => by
    unfold forN
    refine (hs lo x y (by omega) (by push_cast; omega) h).bind fun x' y' h' => ?_
    have := fwd_forN (P := P) n (lo + 1) (fun i x y h1 h2 => hs i x y (by omega) (by push_cast; omega)) h'
    rwa [show lo + 1 + (n : Int) = lo + ((n + 1 : Nat) : Int) by push_cast; ring] at this

theorem fwd_forC {P : Int → Finset Nat} {f : Int → List R → Option (List R)} {lo hi : Int} (hle : lo ≤ hi)
    (hs : ∀ i x y, lo ≤ i → i < hi → Same inc (P i) x y → Fwd inc (P (i + 1)) (f i x) (f i y))
    {x y : List R} (h : Same inc (P lo) x y) : Fwd inc (P hi) (forC lo hi f x) (forC lo hi f y) := by
  have := fwd_forN (P := P) (hi - lo).toNat lo (fun i x y h1 h2 => hs i x y h1 (by omega)) h
  rwa [show lo + ((hi - lo).toNat : Int) = hi by omega] at this

/-- a loop whose steps keep the same elements equal -/
theorem fwd_forC_const {P : Finset Nat} {f : Int → List R → Option (List R)} {lo hi : Int}
    (hs : ∀ i x y, lo ≤ i → i < hi → Same inc P x y → Fwd inc P (f i x) (f i y))
    {x y : List R} (h : Same inc P x y) : Fwd inc P (forC lo hi f x) (forC lo hi f y) := by
  rcases le_or_gt lo hi with hle | hgt
  · exact fwd_forC (P := fun _ => P) hle hs h
  · unfold forC
    rw [show (hi - lo).toNat = 0 by omega]
    exact Fwd.ret h

theorem fwd_forND {P : Int → Finset Nat} {f : Int → List R → Option (List R)} :
    ∀ (n : Nat) (hi : Int) {x y : List R}, (∀ i x y, hi - n < i → i ≤ hi → Same inc (P (i + 1)) x y →
      Fwd inc (P i) (f i x) (f i y)) → Same inc (P (hi + 1)) x y →
      Fwd inc (P (hi + 1 - n)) (forND f n hi x) (forND f n hi y)
  | 0, hi, x, y, _, h => by
    have := Fwd.ret h
    simpa [forND] using this
  | n + 1, hi, x, y, hs, h => by
    unfold forND
    refine (hs hi x y (by push_cast; omega) (by omega) h).bind fun x' y' h' => ?_
    have := fwd_forND (P := P) n (hi - 1) (fun i x y h1 h2 => hs i x y (by push_cast; omega) (by omega))
      (by rwa [sub_add_cancel])
    rwa [show hi - 1 + 1 - (n : Int) = hi + 1 - ((n + 1 : Nat) : Int) by push_cast; ring] at this

theorem fwd_forD {P : Int → Finset Nat} {f : Int → List R → Option (List R)} {m : Nat}
    (hs : ∀ (i : Nat) x y, i < m → Same inc (P ((i : Int) + 1)) x y → Fwd inc (P i) (f i x) (f i y))
    {x y : List R} (h : Same inc (P m) x y) :
    Fwd inc (P 0) (forD ((m : Int) - 1) 0 f x) (forD ((m : Int) - 1) 0 f y) := by
  have := fwd_forND (P := P) (f := f) ((m : Int) - 1 - 0 + 1).toNat ((m : Int) - 1) (x := x) (y := y)
    (fun i x y h1 h2 hp => by
      obtain ⟨k, rfl⟩ : ∃ k : Nat, i = (k : Int) := ⟨i.toNat, by omega⟩
      exact hs k x y (by omega) hp) (by rwa [sub_add_cancel])
  rwa [show (m : Int) - 1 + 1 - (((m : Int) - 1 - 0 + 1).toNat : Int) = 0 by omega] at this

end rel

section kernels
variable {R : Type} [Zero R] [One R] [Add R] [Sub R] [Neg R] [Mul R] [Div R] [DecidableEq R]
variable {inc : Nat} {P : Finset Nat} {x y : List R} {icol : List Int} {a : List R} {base lo hi : Int}

/-- the columns stored at the positions `lo ≤ idx < hi` are in `P` -/
def ColsIn (icol : List Int) (base lo hi : Int) (P : Finset Nat) : Prop :=
  ∀ idx c, lo ≤ idx → idx < hi → rd icol (idx - base) = some c → ∃ k ∈ P, c - base = (k : Int)

omit [Zero R] [One R] [Add R] [Sub R] [Neg R] [Mul R] [Div R] [DecidableEq R] in
theorem Seg.colsIn {S : List (Int × R)} (h : Seg icol a base lo hi S) (hS : ∀ e ∈ S, 0 ≤ e.1 ∧ e.1.toNat ∈ P) :
    ColsIn icol base lo hi P := by
  intro idx c h1 h2 hc
  have hl := h.1
  have ht : (idx - lo).toNat < S.length := by omega
  have := (h.2 _ ht).1
  rw [show lo - base + ((idx - lo).toNat : Int) = idx - base by omega, hc] at this
  obtain rfl := Option.some.inj this
  obtain ⟨q1, q2⟩ := hS _ (List.getElem_mem ht)
  exact ⟨_, q2, by omega⟩

theorem ColsIn.mono {lo' hi' : Int} (h : ColsIn icol base lo hi P) (h1 : lo ≤ lo') (h2 : hi' ≤ hi) :
    ColsIn icol base lo' hi' P := fun idx c a b e => h idx c (by omega) (by omega) e

omit [Zero R] [One R] [Add R] [Sub R] [Neg R] [Mul R] [Div R] [DecidableEq R] in
theorem ColsIn.rd (h : ColsIn icol base lo hi P) (hxy : Same inc P x y) {idx c : Int} (h1 : lo ≤ idx) (h2 : idx < hi)
    (e : rd icol (idx - base) = some c) :
    rd x (c * inc - base * inc) = rd y (c * inc - base * inc) := by
  obtain ⟨k, hk, hc⟩ := h idx c h1 h2 e
  rw [← sub_mul, hc]
  exact hxy.rd hk

theorem sub_same (F : SolveFpu R) (h : ColsIn icol base lo hi P) (hxy : Same inc P x y) {idx : Int} (h1 : lo ≤ idx)
    (h2 : idx < hi) (v : R) : trsvSubFp F base a icol inc x idx v = trsvSubFp F base a icol inc y idx v := by
  unfold trsvSubFp
  cases e : Verif.rd icol (idx - base) with
  | none => rfl
  | some c =>
    simp only [Option.bind_eq_bind, Option.bind_some]
    rw [h.rd hxy h1 h2 e]

omit [Zero R] [One R] [Add R] [Sub R] [Neg R] [Mul R] [Div R] [DecidableEq R] in
theorem lanes_same (h : ColsIn icol base lo hi P) (hxy : Same inc P x y) {idx : Int} {K : Nat} (h1 : lo ≤ idx)
    (h2 : idx + K ≤ hi) : trsvLanes id K base a icol inc x idx = trsvLanes id K base a icol inc y idx := by
  unfold trsvLanes
  have key : ∀ L : List Nat, (∀ l ∈ L, l < K) →
      (L.mapM fun (l : Nat) => do
        let c ← Verif.rd icol (idx + (l : Int) - base)
        let v ← Verif.rd a (idx + (l : Int) - base)
        let xc ← Verif.rd x (c * inc - base * inc)
        some (id v, xc))
      = (L.mapM fun (l : Nat) => do
        let c ← Verif.rd icol (idx + (l : Int) - base)
        let v ← Verif.rd a (idx + (l : Int) - base)
        let xc ← Verif.rd y (c * inc - base * inc)
        some (id v, xc)) := by
    intro L
    induction L with
    | nil => intro _; rfl
    | cons l L ih =>
      intro hL
      have hl := hL l (by simp)
      rw [List.mapM_cons, List.mapM_cons, ih fun l h => hL l (by simp [h])]
      cases e : Verif.rd icol (idx + (l : Int) - base) with
      | none => rfl
      | some c =>
        simp only [Option.bind_eq_bind, Option.bind_some]
        rw [h.rd hxy (idx := idx + l) (by omega) (by omega) e]
  exact key _ fun l hl => List.mem_range.1 hl

theorem dot_same (F : SolveFpu R) {K : Nat} (hK : 0 < K) {hs : List R → R} {S : List (Int × R)}
    (hseg : Seg icol a base lo hi S) (h : ColsIn icol base lo hi P)
    (hxy : Same inc P x y) (v : R) :
    ktRowDotFp F K hs base a icol inc x lo hi v = ktRowDotFp F K hs base a icol inc y lo hi v := by
  obtain ⟨q1, q2, -⟩ := seg_split' hseg hK
  have hl := hseg.1
  have hdm := Nat.div_add_mod S.length K
  unfold ktRowDotFp
  simp only [q1, q2]
  have e1 : ∀ s0 : List R, forS lo (lo + ((K * (S.length / K) : Nat) : Int)) K (fun idx (s : List R) => do
        let L ← trsvLanes id K base a icol inc x idx
        some ((vecFp F.toFpu K hs).fma L s)) s0
      = forS lo (lo + ((K * (S.length / K) : Nat) : Int)) K (fun idx (s : List R) => do
        let L ← trsvLanes id K base a icol inc y idx
        some ((vecFp F.toFpu K hs).fma L s)) s0 := by
    intro s0
    unfold forS
    have hq : (lo + ((K * (S.length / K) : Nat) : Int) - lo + (K : Int) - 1) / (K : Int) = ((S.length / K : Nat) : Int) := by
      rw [show lo + ((K * (S.length / K) : Nat) : Int) - lo + K - 1 = (K - 1 : Int) + (S.length / K : Nat) * K by
        push_cast; ring, Int.add_mul_ediv_right _ _ (by omega), Int.ediv_eq_zero_of_lt (by omega) (by omega), zero_add]
    rw [hq]
    refine forC_congr fun t s h1 h2 => ?_
    have hb : (K : Int) * t + K ≤ ((K * (S.length / K) : Nat) : Int) := by
      push_cast
      push_cast at h2
      nlinarith
    have h0 : 0 ≤ (K : Int) * t := by positivity
    beta_reduce
    rw [lanes_same h hxy (by omega) (by omega)]
  rw [e1]
  congr 1
  funext s
  by_cases hc : ((S.length % K : Nat) : Int) = (K : Int) - 1
  · rw [if_pos hc, if_pos hc, lanes_same h hxy (K := K - 1) (by omega) (by omega)]
  · rw [if_neg hc, if_neg hc]
    refine forC_congr fun t s h1 h2 => ?_
    exact sub_same F h hxy (by omega) h2 _

/-! ### steps of the kernels -/

omit [Zero R] [One R] [Add R] [Sub R] [Neg R] [Mul R] [DecidableEq R] in
theorem div_fwd (unit : Bool) (d : Int) {i : Nat} (hi : i ∈ P) (hxy : Same inc P x y) :
    Fwd inc P (trsvDiv id base a unit d i inc x) (trsvDiv id base a unit d i inc y) := by
  unfold trsvDiv
  cases unit
  · simp only [Bool.false_eq_true, if_false, Option.bind_eq_bind]
    exact Fwd.val rfl fun v _ => Fwd.val (hxy.rd hi) fun w _ => hxy.wr _ _
  · exact Fwd.ret hxy

theorem refProp_fwd (F : SolveFpu R) (h : ColsIn icol base lo hi P) {i : Nat} (hi' : i ∈ P) (idx : Int)
    (x y : List R) (h1 : lo ≤ idx) (h2 : idx < hi) (hxy : Same inc P x y) :
    Fwd inc P (refPropFp F base a icol inc i idx x) (refPropFp F base a icol inc i idx y) := by
  unfold refPropFp
  simp only [Option.bind_eq_bind]
  exact Fwd.val rfl fun c e => Fwd.val rfl fun v _ => Fwd.val (h.rd hxy h1 h2 e) fun xc _ =>
    Fwd.val (hxy.rd hi') fun xi _ => hxy.wr _ _

theorem ktProp1_fwd (F : SolveFpu R) (h : ColsIn icol base lo hi P) (xi : R) (idx : Int)
    (x y : List R) (h1 : lo ≤ idx) (h2 : idx < hi) (hxy : Same inc P x y) :
    Fwd inc P (ktProp1Fp F base a icol inc xi idx x) (ktProp1Fp F base a icol inc xi idx y) := by
  unfold ktProp1Fp
  simp only [Option.bind_eq_bind]
  exact Fwd.val rfl fun c e => Fwd.val rfl fun v _ => Fwd.val (h.rd hxy h1 h2 e) fun xc _ => hxy.wr _ _

theorem ktScat_fwd (F : SolveFpu R) (h : ColsIn icol base lo hi P) (K : Nat) (mxi : R) (idx : Int)
    (x y : List R) (h1 : lo ≤ idx) (h2 : idx + K ≤ hi) (hxy : Same inc P x y) :
    Fwd inc P (ktScatFp F K base a icol inc mxi idx x) (ktScatFp F K base a icol inc mxi idx y) := by
  unfold ktScatFp
  simp only [Option.bind_eq_bind]
  refine Fwd.val (lanes_same h hxy h1 h2) fun L _ => fwd_forC_const (fun l x y _ _ hs => ?_) hxy
  exact Fwd.val rfl fun c _ => Fwd.val rfl fun w _ => hs.wr _ _

theorem ktRowScat_fwd (F : SolveFpu R) {K : Nat} (hK : 0 < K) {S : List (Int × R)}
    (hseg : Seg icol a base lo hi S) (h : ColsIn icol base lo hi P) (xi : R) (hxy : Same inc P x y) :
    Fwd inc P (ktRowScatFp F K base a icol inc lo hi xi x) (ktRowScatFp F K base a icol inc lo hi xi y) := by
  obtain ⟨q1, q2, -⟩ := seg_split' hseg hK
  have hl := hseg.1
  have hdm := Nat.div_add_mod S.length K
  unfold ktRowScatFp
  simp only [q1, q2, Option.bind_eq_bind]
  refine Fwd.bind (Q := P) ?_ fun x' y' hs => ?_
  · unfold forS
    have hq : (lo + ((K * (S.length / K) : Nat) : Int) - lo + (K : Int) - 1) / (K : Int) = ((S.length / K : Nat) : Int) := by
      rw [show lo + ((K * (S.length / K) : Nat) : Int) - lo + K - 1 = (K - 1 : Int) + (S.length / K : Nat) * K by
        push_cast; ring, Int.add_mul_ediv_right _ _ (by omega), Int.ediv_eq_zero_of_lt (by omega) (by omega), zero_add]
    rw [hq]
    refine fwd_forC_const (fun t x y h1 h2 hs => ?_) hxy
    have hb : (K : Int) * t + K ≤ ((K * (S.length / K) : Nat) : Int) := by
      push_cast
      push_cast at h2
      nlinarith
    have h0 : 0 ≤ (K : Int) * t := by positivity
    exact ktScat_fwd F h K _ _ x y (by omega) (by omega) hs
  · by_cases hc : ((S.length % K : Nat) : Int) = (K : Int) - 1
    · rw [if_pos hc, if_pos hc]
      exact ktScat_fwd F h (K - 1) _ _ x' y' (by omega) (by omega) hs
    · rw [if_neg hc, if_neg hc]
      exact fwd_forC_const (fun t x y h1 h2 hs => ktProp1_fwd F h xi t x y (by omega) h2 hs) hs

variable {A : Csr R} {idiag iurow : List Int} {L D U : Nat → List (Int × R)} {b x0 : List R} {incb : Nat}

theorem refLRow_fwd (F : SolveFpu R) (unit : Bool) (al : R) (h : FpCtx A idiag iurow L D U b x0 incb inc) {i : Nat}
    (hi : i < A.m) (hP : ∀ e ∈ L i, 0 ≤ e.1 ∧ e.1.toNat ∈ P) (hxy : Same inc P x y) :
    Fwd inc (insert i P) (refLRowFp F al A.base A.val A.ind A.ptr idiag b incb inc unit i x)
      (refLRowFp F al A.base A.val A.ind A.ptr idiag b incb inc unit i y) := by
  obtain ⟨s, e1, e2, -⟩ := h.low hi
  have hc := e2.colsIn hP
  unfold refLRowFp
  simp only [Option.bind_eq_bind, (h.lo hi).1, e1, Option.bind_some]
  refine Fwd.val rfl fun bi _ => Fwd.val
    (forC_congr fun idx v h1 h2 => sub_same F hc hxy h1 h2 v) fun xi _ => ?_
  cases unit
  · simp only [Bool.false_eq_true, if_false]
    exact Fwd.val rfl fun v _ => hxy.wrAt _ _
  · exact hxy.wrAt _ _

theorem refURow_fwd (F : SolveFpu R) (unit : Bool) (al : R) (h : FpCtx A idiag iurow L D U b x0 incb inc) {i : Nat}
    (hi : i < A.m) (hP : ∀ e ∈ U i, 0 ≤ e.1 ∧ e.1.toNat ∈ P) (hxy : Same inc P x y) :
    Fwd inc (insert i P) (refURowFp F al A.base A.val A.ind A.ptr iurow b incb inc unit i x)
      (refURowFp F al A.base A.val A.ind A.ptr iurow b incb inc unit i y) := by
  obtain ⟨s, e1, e2, -⟩ := h.up hi
  have hc := e2.colsIn hP
  unfold refURowFp
  simp only [Option.bind_eq_bind, (h.lo hi).2, e1, Option.bind_some, sub_add_cancel]
  exact Fwd.val rfl fun bi _ => Fwd.val
    (forC_congr fun idx v h1 h2 => sub_same F hc hxy h1 h2 v) fun xi _ =>
      Fwd.bind (hxy.wrAt _ _) fun x' y' hs => div_fwd unit _ (by simp) hs

theorem ktLRow_fwd (F : SolveFpu R) {K : Nat} (hK : 0 < K) (hs : List R → R) (unit : Bool) (al : R)
    (h : FpCtx A idiag iurow L D U b x0 incb inc) {i : Nat}
    (hi : i < A.m) (hP : ∀ e ∈ L i, 0 ≤ e.1 ∧ e.1.toNat ∈ P) (hxy : Same inc P x y) :
    Fwd inc (insert i P) (ktLRowFp F K hs al A.base A.val A.ind A.ptr idiag b incb inc unit i x)
      (ktLRowFp F K hs al A.base A.val A.ind A.ptr idiag b incb inc unit i y) := by
  obtain ⟨s, e1, e2, -⟩ := h.low hi
  have hc := e2.colsIn hP
  unfold ktLRowFp
  simp only [Option.bind_eq_bind, (h.lo hi).1, e1, Option.bind_some]
  exact Fwd.val rfl fun bi _ => Fwd.val (dot_same F hK e2 hc hxy _) fun xi _ =>
      Fwd.bind (hxy.wrAt _ _) fun x' y' hs => div_fwd unit _ (by simp) hs

theorem ktURow_fwd (F : SolveFpu R) {K : Nat} (hK : 0 < K) (hs : List R → R) (unit : Bool) (al : R)
    (h : FpCtx A idiag iurow L D U b x0 incb inc) {i : Nat}
    (hi : i < A.m) (hP : ∀ e ∈ U i, 0 ≤ e.1 ∧ e.1.toNat ∈ P) (hxy : Same inc P x y) :
    Fwd inc (insert i P) (ktURowFp F K hs al A.base A.val A.ind A.ptr iurow b incb inc unit i x)
      (ktURowFp F K hs al A.base A.val A.ind A.ptr iurow b incb inc unit i y) := by
  obtain ⟨s, e1, e2, -⟩ := h.up hi
  have hc := e2.colsIn hP
  unfold ktURowFp
  simp only [Option.bind_eq_bind, (h.lo hi).2, e1, Option.bind_some, sub_add_cancel]
  exact Fwd.val rfl fun bi _ => Fwd.val (dot_same F hK e2 hc hxy _) fun xi _ =>
      Fwd.bind (hxy.wrAt _ _) fun x' y' hs => div_fwd unit _ (by simp) hs

theorem refLth_fwd (F : SolveFpu R) (unit : Bool) (h : FpCtx A idiag iurow L D U b x0 incb inc) {i : Nat}
    (hi : i < A.m) (hxy : Same inc (range A.m) x y) :
    Fwd inc (range A.m) (refLthRowFp F A.base A.val A.ind A.ptr idiag inc unit i x)
      (refLthRowFp F A.base A.val A.ind A.ptr idiag inc unit i y) := by
  obtain ⟨s, e1, e2, -⟩ := h.low hi
  have hc : ColsIn A.ind A.base (A.p i) s (range A.m) := e2.colsIn fun e he => by
    have := h.range hi .lower e he
    exact ⟨this.1, mem_range.mpr (by omega)⟩
  unfold refLthRowFp
  simp only [Option.bind_eq_bind, (h.lo hi).1, e1, Option.bind_some]
  exact Fwd.bind (div_fwd unit _ (mem_range.mpr hi) hxy) fun x' y' hs =>
    fwd_forC_const (fun idx x y h1 h2 hs => refProp_fwd F hc (mem_range.mpr hi) idx x y h1 h2 hs) hs

theorem refUth_fwd (F : SolveFpu R) (unit : Bool) (h : FpCtx A idiag iurow L D U b x0 incb inc) {i : Nat}
    (hi : i < A.m) (hxy : Same inc (range A.m) x y) :
    Fwd inc (range A.m) (refUthRowFp F A.base A.val A.ind A.ptr iurow inc unit i x)
      (refUthRowFp F A.base A.val A.ind A.ptr iurow inc unit i y) := by
  obtain ⟨s, e1, e2, -⟩ := h.up hi
  have hc : ColsIn A.ind A.base s (A.p (i + 1)) (range A.m) := e2.colsIn fun e he => by
    have := h.range hi .upper e he
    exact ⟨this.1, mem_range.mpr (by omega)⟩
  unfold refUthRowFp
  simp only [Option.bind_eq_bind, (h.lo hi).2, e1, Option.bind_some, sub_add_cancel]
  exact Fwd.bind (div_fwd unit _ (mem_range.mpr hi) hxy) fun x' y' hs =>
    fwd_forC_const (fun idx x y h1 h2 hs => refProp_fwd F hc (mem_range.mpr hi) idx x y h1 h2 hs) hs

theorem ktLt_fwd (F : SolveFpu R) {K : Nat} (hK : 0 < K) (unit : Bool) (h : FpCtx A idiag iurow L D U b x0 incb inc)
    {i : Nat} (hi : i < A.m) (hxy : Same inc (range A.m) x y) :
    Fwd inc (range A.m) (ktLtRowFp F K A.base A.val A.ind A.ptr idiag inc unit i x)
      (ktLtRowFp F K A.base A.val A.ind A.ptr idiag inc unit i y) := by
  obtain ⟨s, e1, e2, -⟩ := h.low hi
  have hc : ColsIn A.ind A.base (A.p i) s (range A.m) := e2.colsIn fun e he => by
    have := h.range hi .lower e he
    exact ⟨this.1, mem_range.mpr (by omega)⟩
  unfold ktLtRowFp
  simp only [Option.bind_eq_bind, (h.lo hi).1, e1, Option.bind_some]
  exact Fwd.bind (div_fwd unit _ (mem_range.mpr hi) hxy) fun x' y' hs =>
    Fwd.val (hs.rd (mem_range.mpr hi)) fun xi _ => ktRowScat_fwd F hK e2 hc xi hs

theorem ktUt_fwd (F : SolveFpu R) {K : Nat} (hK : 0 < K) (unit : Bool) (h : FpCtx A idiag iurow L D U b x0 incb inc)
    {i : Nat} (hi : i < A.m) (hxy : Same inc (range A.m) x y) :
    Fwd inc (range A.m) (ktUtRowFp F K A.base A.val A.ind A.ptr iurow inc unit i x)
      (ktUtRowFp F K A.base A.val A.ind A.ptr iurow inc unit i y) := by
  obtain ⟨s, e1, e2, -⟩ := h.up hi
  have hc : ColsIn A.ind A.base s (A.p (i + 1)) (range A.m) := e2.colsIn fun e he => by
    have := h.range hi .upper e he
    exact ⟨this.1, mem_range.mpr (by omega)⟩
  unfold ktUtRowFp
  simp only [Option.bind_eq_bind, (h.lo hi).2, e1, Option.bind_some, sub_add_cancel]
  exact Fwd.bind (div_fwd unit _ (mem_range.mpr hi) hxy) fun x' y' hs =>
    Fwd.val (hs.rd (mem_range.mpr hi)) fun xi _ => ktRowScat_fwd F hK e2 hc xi hs

/-! ### the loops over the rows -/

/-- rows before `j`, rows from `j` on -/
def before (m : Nat) (j : Int) : Finset Nat := (range m).filter fun k => (k : Int) < j
def after (m : Nat) (j : Int) : Finset Nat := (range m).filter fun k => j ≤ (k : Int)

omit [Zero R] [One R] [Add R] [Sub R] [Neg R] [Mul R] [Div R] [DecidableEq R] in
theorem fwd_rows {f : Int → List R → Option (List R)} {m : Nat}
    (hs : ∀ (i : Nat) x y, i < m → Same inc (before m i) x y → Fwd inc (insert i (before m i)) (f i x) (f i y))
    (h : x.length = y.length) : Fwd inc (range m) (forC 0 m f x) (forC 0 m f y) := by
  have := fwd_forC (P := before m) (inc := inc) (f := f) (lo := 0) (hi := m) (by omega) (fun i x y h1 h2 hp => by
    obtain ⟨k, rfl⟩ : ∃ k : Nat, i = (k : Int) := ⟨i.toNat, by omega⟩
    refine (hs k x y (by omega) hp).mono fun q hq => ?_
    simp only [before, mem_filter, mem_range, mem_insert] at hq ⊢
    omega) (x := x) (y := y) ⟨h, fun i hi => by simp [before] at hi; omega⟩
  exact this.mono fun q hq => by simp [before] at hq ⊢; exact hq

omit [Zero R] [One R] [Add R] [Sub R] [Neg R] [Mul R] [Div R] [DecidableEq R] in
theorem fwd_rows_down {f : Int → List R → Option (List R)} {m : Nat}
    (hs : ∀ (i : Nat) x y, i < m → Same inc (after m ((i : Int) + 1)) x y →
      Fwd inc (insert i (after m ((i : Int) + 1))) (f i x) (f i y))
    (h : x.length = y.length) : Fwd inc (range m) (forD ((m : Int) - 1) 0 f x) (forD ((m : Int) - 1) 0 f y) := by
  have := fwd_forD (P := after m) (inc := inc) (f := f) (m := m) (fun i x y h1 hp => by
    refine (hs i x y h1 hp).mono fun q hq => ?_
    simp only [after, mem_filter, mem_range, mem_insert] at hq ⊢
    omega) (x := x) (y := y) ⟨h, fun i hi => by simp [after] at hi; omega⟩
  exact this.mono fun q hq => by simp [after] at hq ⊢; exact hq

omit [Zero R] [One R] [Add R] [Sub R] [Neg R] [Div R] [DecidableEq R] in
theorem init_fwd (al : R) (m : Nat) (b : List R) (incb : Nat) (h : x.length = y.length) :
    Fwd inc (range m) (trsvInit al m b incb x inc) (trsvInit al m b incb y inc) := by
  unfold trsvInit
  refine fwd_rows (fun i x y _ hp => ?_) h
  simp only [Option.bind_eq_bind]
  exact Fwd.val rfl fun bi _ => hp.wrAt _ _

/-- **the solve does not depend on the former values of the solution array** -/
theorem trsvFp_fwd (F : SolveFpu R) (unit : Bool) (al : R) (im : FpTrsv R) {l : Nat} (f : Fill) (tr : Bool)
    (him : im.Ok F l A al tr) (h : FpCtx A idiag iurow L D U b x0 incb inc) (hxy : x.length = y.length) :
    Fwd inc (range A.m)
      (trsvFp F im (triDoid f tr) al A.m A.base A.val A.ind A.ptr idiag iurow b incb x inc unit)
      (trsvFp F im (triDoid f tr) al A.m A.base A.val A.ind A.ptr idiag iurow b incb y inc unit) := by
  have hL : ∀ i, i < A.m → ∀ e ∈ L i, 0 ≤ e.1 ∧ e.1.toNat ∈ before A.m i := fun i hi e he => by
    have := h.strict hi .lower e he
    have h3 : e.1.toNat < i := this.2.2
    refine ⟨this.1, ?_⟩
    simp only [before, mem_filter, mem_range]
    omega
  have hU : ∀ i, i < A.m → ∀ e ∈ U i, 0 ≤ e.1 ∧ e.1.toNat ∈ after A.m ((i : Int) + 1) := fun i hi e he => by
    have := h.strict hi .upper e he
    have h3 : i < e.1.toNat := this.2.2
    refine ⟨this.1, ?_⟩
    simp only [after, mem_filter, mem_range]
    omega
  cases im with
  | ref =>
    cases f <;> cases tr
    · exact fwd_rows (fun i x y hi hp => refLRow_fwd F unit al h hi (hL i hi) hp) hxy
    · exact (init_fwd al A.m b incb hxy).bind fun x' y' hs =>
        fwd_forD (P := fun _ => range A.m) (fun i x y hi hp => refLth_fwd F unit h hi hp) hs
    · exact fwd_rows_down (fun i x y hi hp => refURow_fwd F unit al h hi (hU i hi) hp) hxy
    · exact (init_fwd al A.m b incb hxy).bind fun x' y' hs =>
        fwd_forC_const (fun i x y h1 h2 hp => by
          obtain ⟨k, rfl⟩ : ∃ k : Nat, i = (k : Int) := ⟨i.toNat, by omega⟩
          exact refUth_fwd F unit h (by omega) hp) hs
  | kt K hs =>
    obtain ⟨hK, hh, htr⟩ := him
    cases f <;> cases tr
    · exact fwd_rows (fun i x y hi hp => ktLRow_fwd F hK hs unit al h hi (hL i hi) hp) hxy
    · have ha := (htr rfl).2
      refine Fwd.bind (Q := range A.m) ?_ fun x' y' hs =>
        fwd_forD (P := fun _ => range A.m) (fun i x y hi hp => ktLt_fwd F hK unit h hi hp) hs
      unfold ktInit
      rw [if_pos ha, if_pos ha]
      exact init_fwd al A.m b incb hxy
    · exact fwd_rows_down (fun i x y hi hp => ktURow_fwd F hK hs unit al h hi (hU i hi) hp) hxy
    · have ha := (htr rfl).2
      refine Fwd.bind (Q := range A.m) ?_ fun x' y' hs =>
        fwd_forC_const (fun i x y h1 h2 hp => by
          obtain ⟨k, rfl⟩ : ∃ k : Nat, i = (k : Int) := ⟨i.toNat, by omega⟩
          exact ktUt_fwd F hK unit h (by omega) hp) hs
      unfold ktInit
      rw [if_pos ha, if_pos ha]
      exact init_fwd al A.m b incb hxy

end kernels
end Verif
