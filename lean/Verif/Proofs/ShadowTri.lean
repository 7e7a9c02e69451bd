/-
Triangular products and products with a pair of triangles, run in three arithmetics (see Shadow.lean).
-/
import Verif.Proofs.ShadowMv
import Verif.Proofs.Adds
import Verif.Model.Tcsr

namespace Verif
open Model Rounding

variable {R : Type} [Zero R] [Add R] [Mul R]
  {ρ : Rounding} {v : R → ℝ} {fac : R → Option (ℝ × ℝ)}

theorem dotSeq_rel (hR : Contracts ρ v fac) {ind : List Int} {val x : List R} (hx : ∀ a ∈ x, fac a = none)
    (base lo hi : Int) {k : Nat} (hk : 1 ≤ k) {r : R} {e s : ℝ} (h : NearC ρ v fac k e s r) :
    Opt3 (fun a e s => NearC ρ v fac (k + (hi - lo).toNat) e s a) (dotSeq ind val x base lo hi r)
      (dotSeq ind (val.map v) (x.map v) base lo hi e) (dotSeq ind (szs v val) (szs v x) base lo hi s) := by
  unfold dotSeq
  refine Opt3.forC (fun j a e s => NearC ρ v fac (k + j) e s a) h fun j _ a e s hn => ?_
  refine Opt3.bind (term_rel hR hx _ _) fun a1 e1 s1 h1 => ?_
  exact NearC.add hR hn (h1.mono (show 1 ≤ k + j by omega))

/-- registers -/
def NearL (ρ : Rounding) (v : R → ℝ) (fac : R → Option (ℝ × ℝ)) (k : Nat) (a : List R) (e s : List ℝ) : Prop :=
  ∀ l : Nat, Opt3 (fun a e s => NearC ρ v fac k e s a) a[l]? e[l]? s[l]?

omit [Zero R] [Add R] [Mul R] in
theorem NearL.mono {k l : Nat} {a : List R} {e s : List ℝ} (h : NearL ρ v fac k a e s) (hl : k ≤ l) :
    NearL ρ v fac l a e s := fun i => Opt3.mono (fun _ _ _ h => NearC.mono h hl) (h i)

theorem nearL_zero (hR : Contracts ρ v fac) (K k : Nat) :
    NearL ρ v fac k (List.replicate K (0 : R)) (List.replicate K 0) (List.replicate K 0) := by
  intro l
  simp only [List.getElem?_replicate]
  split
  · exact (NearC.zero hR).mono (Nat.zero_le k)
  · trivial

/-- the operands of a fused multiply-add -/
def LanesRel (v : R → ℝ) (fac : R → Option (ℝ × ℝ)) (a : List (R × R)) (e s : List (ℝ × ℝ)) : Prop :=
  (∀ p ∈ a, fac p.2 = none) ∧ e = a.map (fun p => (v p.1, v p.2)) ∧ s = a.map fun p => (|v p.1|, |v p.2|)

omit [Zero R] [Add R] [Mul R] in
theorem lanesAt_rel {ind : List Int} {val x : List R} (hx : ∀ a ∈ x, fac a = none) (K : Nat) (base p : Int) :
    Opt3 (LanesRel v fac) (lanesAt K ind val x base p) (lanesAt K ind (val.map v) (x.map v) base p)
      (lanesAt K ind (szs v val) (szs v x) base p) := by
  unfold lanesAt
  induction List.range K with
  | nil => exact ⟨by simp, rfl, rfl⟩
  | cons l L ih =>
    simp only [List.mapM_cons]
    refine Opt3.bind (P := fun (a : R × R) (e s : ℝ × ℝ) => fac a.2 = none ∧ e = (v a.1, v a.2) ∧ s = (|v a.1|, |v a.2|))
      ?_ ?_
    · refine Opt3.bind (Opt3.same _) ?_
      rintro c _ _ ⟨rfl, rfl⟩
      refine Opt3.bind (rd_rel _) ?_
      rintro a _ _ ⟨-, rfl, rfl⟩
      refine Opt3.bind (rd_rel _) ?_
      rintro b _ _ ⟨hb, rfl, rfl⟩
      exact ⟨hx b hb, rfl, rfl⟩
    · rintro a _ _ ⟨ha, rfl, rfl⟩
      refine Opt3.bind ih ?_
      rintro A _ _ ⟨hA, rfl, rfl⟩
      refine ⟨?_, rfl, rfl⟩
      intro p hp
      rcases List.mem_cons.1 hp with rfl | hp
      · exact ha
      · exact hA p hp

theorem fma_rel (hR : Contracts ρ v fac) {k : Nat} (hk : 1 ≤ k) {L : List (R × R)} {Le Ls : List (ℝ × ℝ)}
    (hL : LanesRel v fac L Le Ls) {a : List R} {e s : List ℝ} (h : NearL ρ v fac k a e s) :
    NearL ρ v fac (k + 1) (List.zipWith (fun ab c => ab.1 * ab.2 + c) L a)
      (List.zipWith (fun ab c => ab.1 * ab.2 + c) Le e) (List.zipWith (fun ab c => ab.1 * ab.2 + c) Ls s) := by
  obtain ⟨hp, rfl, rfl⟩ := hL
  intro l
  have := h l
  simp only [List.getElem?_zipWith, List.getElem?_map]
  cases hl : L[l]? with
  | none => trivial
  | some p =>
    rcases h1 : a[l]? with _ | q <;> rcases h2 : e[l]? with _ | q' <;> rcases h3 : s[l]? with _ | q'' <;>
      rw [h1, h2, h3] at this <;> try exact this.elim
    · trivial
    · exact NearC.add hR ((NearC.prod hR (hp p (List.mem_of_getElem? hl))).mono hk) this

omit [Zero R] [Add R] [Mul R] in
theorem NearL.len {k : Nat} {a : List R} {e s : List ℝ} (h : NearL ρ v fac k a e s) :
    e.length = a.length ∧ s.length = a.length := by
  have key : ∀ l, (l < a.length ↔ l < e.length) ∧ (l < a.length ↔ l < s.length) := by
    intro l
    have := h l
    rcases h1 : a[l]? with _ | q <;> rcases h2 : e[l]? with _ | q' <;> rcases h3 : s[l]? with _ | q'' <;>
      rw [h1, h2, h3] at this <;> try exact this.elim
    · rw [List.getElem?_eq_none_iff] at h1 h2 h3; omega
    · have g1 := (List.getElem?_eq_some_iff.1 h1).1
      have g2 := (List.getElem?_eq_some_iff.1 h2).1
      have g3 := (List.getElem?_eq_some_iff.1 h3).1
      omega
  have a1 := key a.length; have a2 := key e.length; have a3 := key s.length
  omega

theorem hsum4l_rel (hR : Contracts ρ v fac) {k : Nat} {a : List R} {e s : List ℝ} (h : NearL ρ v fac k a e s) :
    NearC ρ v fac (k + 2) (hsum4l e) (hsum4l s) (hsum4l a) := by
  obtain ⟨l1, l2⟩ := h.len
  by_cases hl : a.length = 4
  · match a, e, s, hl, l1, l2, h with
    | [a0, a1, a2, a3], [e0, e1, e2, e3], [s0, s1, s2, s3], _, _, _, h =>
      exact NearC.add hR (NearC.add hR (h 0) (h 1)) (NearC.add hR (h 2) (h 3))
  · have z : ∀ {T : Type} [Zero T] [Add T] {q : List T}, q.length ≠ 4 → hsum4l q = 0 := by
      intro T _ _ q hq
      unfold hsum4l
      split
      · simp at hq
      · rfl
    rw [z hl, z (by omega), z (by omega)]
    exact (NearC.zero hR).mono (Nat.zero_le _)

theorem blocks4_rel (hR : Contracts ρ v fac) {ind : List Int} {val x : List R} (hx : ∀ a ∈ x, fac a = none)
    (base lo hi : Int) {k : Nat} (hk : 1 ≤ k) {a : List R} {e s : List ℝ} (h : NearL ρ v fac k a e s) :
    Opt3 (NearL ρ v fac (k + (hi - lo).toNat / 4))
      (tcsrBlocks (vecLanes 4 hsum4l) 4 ind val x base lo hi a)
      (tcsrBlocks (vecLanes 4 hsum4l) 4 ind (val.map v) (x.map v) base lo hi e)
      (tcsrBlocks (vecLanes 4 hsum4l) 4 ind (szs v val) (szs v x) base lo hi s) := by
  have hn : ((hi - (hi - lo).tmod ((4 : Nat) : Int) - lo + ((4 : Nat) : Int) - 1) / ((4 : Nat) : Int) - 0).toNat
      ≤ (hi - lo).toNat / 4 := by
    rcases le_total 0 (hi - lo) with h | h
    · rw [Int.tmod_eq_emod_of_nonneg h]
      push_cast
      omega
    · have : (hi - lo).tmod ((4 : Nat) : Int) = -((lo - hi) % 4) := by
        rw [show hi - lo = -(lo - hi) by ring, Int.neg_tmod, Int.tmod_eq_emod_of_nonneg (by omega)]
        rfl
      rw [this]
      push_cast
      omega
  unfold tcsrBlocks forS
  refine Opt3.mono (fun _ _ _ h => NearL.mono h (Nat.add_le_add_left hn k))
    (Opt3.forC (fun j => NearL ρ v fac (k + j)) h fun j _ a e s hL => ?_)
  refine Opt3.bind (lanesAt_rel hx 4 base _) fun L Le Ls hl => ?_
  exact fma_rel hR (show 1 ≤ k + j by omega) hl hL

theorem rem4_le (lo hi : Int) : (hi - (hi - (hi - lo).tmod ((4 : Nat) : Int))).toNat ≤ 3 := by
  rcases le_total 0 (hi - lo) with h | h
  · rw [Int.tmod_eq_emod_of_nonneg h]
    push_cast
    omega
  · have : (hi - lo).tmod ((4 : Nat) : Int) = -((lo - hi) % 4) := by
      rw [show hi - lo = -(lo - hi) by ring, Int.neg_tmod, Int.tmod_eq_emod_of_nonneg (by omega)]
      rfl
    rw [this]
    omega

theorem dotK4_rel (hR : Contracts ρ v fac) {ind : List Int} {val x : List R} (hx : ∀ a ∈ x, fac a = none)
    (base lo hi : Int) {r : R} {e s : ℝ} (h : NearC ρ v fac 1 e s r) :
    Opt3 (fun a e s => NearC ρ v fac ((hi - lo).toNat / 4 + 6) e s a)
      (dotK (vecLanes 4 hsum4l) 4 (finIf (vecLanes 4 hsum4l) 4 lo hi r) ind val x base lo hi)
      (dotK (vecLanes 4 hsum4l) 4 (finIf (vecLanes 4 hsum4l) 4 lo hi e) ind (val.map v) (x.map v) base lo hi)
      (dotK (vecLanes 4 hsum4l) 4 (finIf (vecLanes 4 hsum4l) 4 lo hi s) ind (szs v val) (szs v x) base lo hi) := by
  unfold dotK
  refine Opt3.bind (blocks4_rel hR hx base lo hi le_rfl (nearL_zero hR 4 1)) fun a b c hL => ?_
  have hf : NearC ρ v fac ((hi - lo).toNat / 4 + 3) (finIf (vecLanes 4 hsum4l) 4 lo hi e b)
      (finIf (vecLanes 4 hsum4l) 4 lo hi s c) (finIf (vecLanes 4 hsum4l) 4 lo hi r a) := by
    unfold finIf
    split
    · exact (hsum4l_rel hR hL).mono (by omega)
    · exact h.mono (by omega)
  refine Opt3.mono (fun _ _ _ h => NearC.mono h ?_) (dotSeq_rel hR hx base _ hi (by omega) hf)
  have := rem4_le lo hi
  omega

theorem addIf_rel (hR : Contracts ρ v fac) {x : List R} (hx : ∀ a ∈ x, fac a = none) (c : Prop) [Decidable c] (i : Int)
    {k : Nat} {r : R} {e s : ℝ} (h : NearC ρ v fac k e s r) :
    Opt3 (fun a e s => NearC ρ v fac (k + 1) e s a) (addIf c x i r) (addIf c (x.map v) i e) (addIf c (szs v x) i s) := by
  unfold addIf
  split
  · refine Opt3.bind (rd_rel _) ?_
    rintro b _ _ ⟨hb, rfl, rfl⟩
    exact NearC.add hR h ((NearC.plain (hx b hb)).mono (Nat.zero_le _))
  · exact h.mono (Nat.le_succ _)

theorem triAvx2Row_rel (hR : Contracts ρ v fac) {ind ptr idiag iurow : List Int} {val x : List R}
    (hx : ∀ a ∈ x, fac a = none) (base : Int) (diag fill : Nat) (i : Int) (N : Nat)
    (hN : ∀ b, triBounds fill ptr idiag iurow i = some b →
      (b.2 + triEnd fill diag - (b.1 + triStart fill diag)).toNat ≤ N) :
    Opt3 (fun a e s => NearC ρ v fac (N / 4 + 7) e s a) (triAvx2Row base diag fill val ind ptr idiag iurow x i)
      (triAvx2Row base diag fill (val.map v) ind ptr idiag iurow (x.map v) i)
      (triAvx2Row base diag fill (szs v val) ind ptr idiag iurow (szs v x) i) := by
  unfold triAvx2Row
  cases hb : triBounds fill ptr idiag iurow i with
  | none => trivial
  | some b =>
    have hN := hN b hb
    simp only [Option.bind_eq_bind, Option.bind_some]
    refine Opt3.bind (addIf_rel hR hx _ i (NearC.zero hR)) fun r e s h => ?_
    refine Opt3.bind (dotK4_rel hR hx base _ _ h) fun r e s h => ?_
    refine Opt3.mono (fun _ _ _ h => NearC.mono h ?_) (addIf_rel hR hx _ i h)
    omega

theorem csrmvTriAvx2_rel [DecidableEq R] (hR : Contracts ρ v fac) {ind ptr idiag iurow : List Int} {val x y : List R}
    (hx : ∀ a ∈ x, fac a = none) (hy : ∀ a ∈ y, fac a = none) (base : Int) (diag fill m : Nat) (alpha beta : R) (N : Nat → Nat)
    (hN : ∀ i, i < m → ∀ b, triBounds fill ptr idiag iurow i = some b →
      (b.2 + triEnd fill diag - (b.1 + triStart fill diag)).toNat ≤ N i) :
    Opt3 (YRel ρ v fac (fun i => N i / 4 + 9) y (· < m))
      (csrmvTriAvx2 base alpha m diag fill val ind ptr idiag iurow x beta y)
      (csrmvTriAvx2 base (v alpha) m diag fill (val.map v) ind ptr idiag iurow (x.map v) (v beta) (y.map v))
      (csrmvTriAvx2 base |v alpha| m diag fill (szs v val) ind ptr idiag iurow (szs v x) |v beta| (szs v y)) := by
  unfold csrmvTriAvx2
  simp only [storeRowA_put]
  exact rows_rel (finA_rel hR alpha beta) hy (Nat.zero_le m) (k := fun i => N i / 4 + 7) (fun i => le_rfl)
    (fun i hi => triAvx2Row_rel hR hx base diag fill i (N i) (hN i hi)) (YRel.init y fun i => Nat.not_lt_zero i)

/-- the three images of a pair of triangles -/
def Model.Tcsr.mapTo {S : Type} (f : R → S) (T : Tcsr R) : Tcsr S :=
  { T with valL := T.valL.map f, valU := T.valU.map f }

theorem tcsrRow_rel (hR : Contracts ρ v fac) (T : Tcsr R) {x : List R} (hx : ∀ a ∈ x, fac a = none) (base i : Int) (N : Nat)
    (hN : ∀ lo hi ulo uhi, rd T.ptrL i = some lo → rd T.ptrL (i + 1) = some hi → rd T.ptrU i = some ulo →
      rd T.ptrU (i + 1) = some uhi → (hi - lo).toNat / 4 + (uhi - (ulo + 1)).toNat / 4 ≤ N) :
    Opt3 (fun a e s => NearC ρ v fac (N + 8) e s a) (tcsrRow (vecLanes 4 hsum4l) 4 base T x i)
      (tcsrRow (vecLanes 4 hsum4l) 4 base (T.mapTo v) (x.map v) i)
      (tcsrRow (vecLanes 4 hsum4l) 4 base (T.mapTo fun a => |v a|) (szs v x) i) := by
  unfold tcsrRow
  simp only [Tcsr.mapTo]
  cases h1 : rd T.ptrL i with
  | none => trivial
  | some lo =>
  cases h2 : rd T.ptrL (i + 1) with
  | none => trivial
  | some hi =>
  simp only [Option.bind_eq_bind, Option.bind_some]
  refine Opt3.bind (blocks4_rel hR hx base lo hi le_rfl (nearL_zero hR 4 1)) fun a b c hL => ?_
  refine Opt3.bind (dotSeq_rel hR hx base (hi - (hi - lo).tmod ((4 : Nat) : Int)) hi le_rfl
    ((NearC.zero hR).mono (Nat.zero_le 1))) fun r e s hr => ?_
  cases h3 : rd T.ptrU i with
  | none => trivial
  | some ulo =>
  cases h4 : rd T.ptrU (i + 1) with
  | none => trivial
  | some uhi =>
  have hN := hN lo hi ulo uhi h1 h2 h3 h4
  simp only [Option.bind_some]
  refine Opt3.bind (blocks4_rel hR hx base (ulo + 1) uhi (by omega) hL) fun a b c hL' => ?_
  have q1 := rem4_le lo hi
  have q2 := rem4_le (ulo + 1) uhi
  have hf : NearC ρ v fac (N + 5) (tcsrFin (vecLanes 4 hsum4l) 4 (hi - lo) (uhi - (ulo + 1)) b e)
      (tcsrFin (vecLanes 4 hsum4l) 4 (hi - lo) (uhi - (ulo + 1)) c s)
      (tcsrFin (vecLanes 4 hsum4l) 4 (hi - lo) (uhi - (ulo + 1)) a r) := by
    unfold tcsrFin
    split
    · exact NearC.add hR (hr.mono (by omega : _ ≤ N + 4)) ((hsum4l_rel hR hL').mono (by omega))
    · exact hr.mono (by omega)
  refine Opt3.mono (fun _ _ _ h => NearC.mono h ?_) (dotSeq_rel hR hx base _ uhi (by omega) hf)
  omega

theorem dtcsrmv_rel [DecidableEq R] (hR : Contracts ρ v fac) (T : Tcsr R) {x y : List R}
    (hx : ∀ a ∈ x, fac a = none) (hy : ∀ a ∈ y, fac a = none) (base : Int) (alpha beta : R) (m : Nat) (hm : T.m = m)
    (N : Nat → Nat) (hN : ∀ i : Nat, i < m → ∀ lo hi ulo uhi, rd T.ptrL i = some lo → rd T.ptrL ((i : Int) + 1) = some hi →
      rd T.ptrU i = some ulo → rd T.ptrU ((i : Int) + 1) = some uhi →
        (hi - lo).toNat / 4 + (uhi - (ulo + 1)).toNat / 4 ≤ N i) :
    Opt3 (YRel ρ v fac (fun i => N i + 10) y (· < m)) (dtcsrmv base alpha T x beta y)
      (dtcsrmv base (v alpha) (T.mapTo v) (x.map v) (v beta) (y.map v))
      (dtcsrmv base |v alpha| (T.mapTo fun a => |v a|) (szs v x) |v beta| (szs v y)) := by
  unfold dtcsrmv
  simp only [storeRowA_put]
  rw [show (T.mapTo v).m = (m : Int) from hm, show (T.mapTo fun a => |v a|).m = (m : Int) from hm, hm]
  exact rows_rel (finA_rel hR alpha beta) hy (Nat.zero_le m) (k := fun i => N i + 8) (fun i => le_rfl)
    (fun i hi => tcsrRow_rel hR T hx base i (N i) (hN i hi)) (YRel.init y fun i => Nat.not_lt_zero i)

/-! ### `y` scaled first, then updated -/

/-- cell by cell -/
def YQ (Q : Nat → R → ℝ → ℝ → Prop) (y : List R) (ye ys : List ℝ) : Prop :=
  ∀ i : Nat, Opt3 (Q i) y[i]? ye[i]? ys[i]?

omit [Zero R] [Add R] [Mul R] in
theorem YQ.mono {Q Q' : Nat → R → ℝ → ℝ → Prop} (h : ∀ i r e s, Q i r e s → Q' i r e s) {y : List R} {ye ys : List ℝ}
    (hy : YQ Q y ye ys) : YQ Q' y ye ys := fun i => Opt3.mono (h i) (hy i)

/-- the cells below `m` have depth `K`, the others are those of `y0` -/
def Below (ρ : Rounding) (v : R → ℝ) (fac : R → Option (ℝ × ℝ)) (K : Nat → Nat) (y0 : List R) (m i : Nat)
    (r : R) (e s : ℝ) : Prop :=
  (i < m → NearC ρ v fac (K i) e s r) ∧ (m ≤ i → y0[i]? = some r)

omit [Zero R] [Add R] [Mul R] in
theorem YQ.len {Q : Nat → R → ℝ → ℝ → Prop} {y : List R} {ye ys : List ℝ} (h : YQ Q y ye ys) :
    ye.length = y.length ∧ ys.length = y.length := by
  have key : ∀ l, (l < y.length ↔ l < ye.length) ∧ (l < y.length ↔ l < ys.length) := by
    intro l
    have := h l
    rcases h1 : y[l]? with _ | q <;> rcases h2 : ye[l]? with _ | q' <;> rcases h3 : ys[l]? with _ | q'' <;>
      rw [h1, h2, h3] at this <;> try exact this.elim
    · rw [List.getElem?_eq_none_iff] at h1 h2 h3; omega
    · have g1 := (List.getElem?_eq_some_iff.1 h1).1
      have g2 := (List.getElem?_eq_some_iff.1 h2).1
      have g3 := (List.getElem?_eq_some_iff.1 h3).1
      omega
  have a1 := key y.length; have a2 := key ye.length; have a3 := key ys.length
  omega

theorem sc_rel [One R] [DecidableEq R] (hR : Contracts ρ v fac) (h1 : v 1 = 1) (beta : R) {q : R} (hq : fac q = none) :
    NearC ρ v fac 1 (v beta * v q) (|v beta| * |v q|) (sc beta q) := by
  unfold sc
  by_cases h0 : beta = 0
  · rw [if_pos h0, h0, hR.zero, abs_zero, zero_mul, zero_mul]
    exact (NearC.zero hR).mono (Nat.zero_le 1)
  · rw [if_neg h0]
    by_cases hb : beta = 1
    · rw [if_neg (by simpa using hb), hb, h1, abs_one, one_mul, one_mul]
      exact (NearC.plain hq).mono (Nat.zero_le 1)
    · rw [if_pos hb]
      exact NearC.prod hR hq

theorem scaleY_rel [One R] [DecidableEq R] (hR : Contracts ρ v fac) (h1 : v 1 = 1) (beta : R) {m : Nat} {y : List R}
    (hm : m ≤ y.length) (hy : ∀ a ∈ y, fac a = none) :
    Opt3 (YQ (Below ρ v fac (fun _ => 1) y m)) (scaleY beta m y) (scaleY (v beta) m (y.map v))
      (scaleY |v beta| m (szs v y)) := by
  obtain ⟨y1, e1, r1⟩ := scaleY_spec (beta := beta) (Rep.of_list y 0) hm
  obtain ⟨y2, e2, r2⟩ := scaleY_spec (beta := v beta) (Rep.of_list (y.map v) 0) (n := m) (by simpa using hm)
  obtain ⟨y3, e3, r3⟩ := scaleY_spec (beta := |v beta|) (Rep.of_list (szs v y) 0) (n := m) (by simpa using hm)
  rw [e1, e2, e3]
  intro i
  have l1 := r1.1; have l2 := r2.1; have l3 := r3.1
  simp only [List.length_map] at l2 l3
  by_cases hi : i < y.length
  · have g1 := r1.rd_nat hi
    have g2 := r2.rd_nat (i := i) (by simpa using hi)
    have g3 := r3.rd_nat (i := i) (by simpa using hi)
    rw [rd_ofNat] at g1 g2 g3
    rw [g1, g2, g3]
    simp only [List.getD, List.getElem?_map, List.getElem?_eq_getElem hi, Option.map_some, Option.getD_some]
    refine ⟨fun him => ?_, fun him => ?_⟩
    · rw [if_pos him, if_pos him, if_pos him, sc_eq (R := ℝ), sc_eq (R := ℝ)]
      exact sc_rel hR h1 beta (hy _ (List.getElem_mem hi))
    · rw [if_neg (by omega), List.getElem?_eq_getElem hi]
  · rw [List.getElem?_eq_none (by omega), List.getElem?_eq_none (by omega), List.getElem?_eq_none (by omega)]
    trivial

/-- `y[i] += t` -/
theorem addAt_rel (hR : Contracts ρ v fac) {K : Nat → Nat} {y0 : List R} {m i : Nat} (hi : i < m) {y : List R} {ye ys : List ℝ}
    (h : YQ (Below ρ v fac K y0 m) y ye ys) {k : Nat} {t : R} {e s : ℝ} (hk : k ≤ K i) (ht : NearC ρ v fac k e s t) :
    Opt3 (YQ (Below ρ v fac (fun j => if j = i then K i + 1 else K j) y0 m)) (addAt y i t) (addAt ye i e) (addAt ys i s) := by
  unfold addAt
  obtain ⟨l1, l2⟩ := h.len
  have hc := h i
  rw [rd_ofNat, rd_ofNat, rd_ofNat]
  rcases h1 : y[i]? with _ | q <;> rcases h2 : ye[i]? with _ | q' <;> rcases h3 : ys[i]? with _ | q'' <;>
    rw [h1, h2, h3] at hc <;> try exact hc.elim
  · trivial
  · have g1 := (List.getElem?_eq_some_iff.1 h1).1
    simp only [Option.bind_eq_bind, Option.bind_some]
    rw [wr_ofNat g1, wr_ofNat (by omega), wr_ofNat (by omega)]
    intro j
    by_cases hj : j = i
    · subst hj
      rw [List.getElem?_set_self (by omega), List.getElem?_set_self (by omega), List.getElem?_set_self (by omega)]
      refine ⟨fun _ => ?_, fun h => by omega⟩
      show NearC ρ v fac (if j = j then K j + 1 else K j) _ _ _
      rw [if_pos rfl]
      exact NearC.add hR (hc.1 hi) (ht.mono hk)
    · rw [List.getElem?_set_ne (Ne.symm hj), List.getElem?_set_ne (Ne.symm hj), List.getElem?_set_ne (Ne.symm hj)]
      refine Opt3.mono ?_ (h j)
      intro r e s hb
      exact ⟨fun hm => by
        show NearC ρ v fac (if j = i then K i + 1 else K j) _ _ _
        rw [if_neg hj]; exact hb.1 hm, hb.2⟩

/-- what the three runs say about the first -/
theorem mvErr_of' {K : Nat → Nat} {alpha beta : R} {M N : Mat ℝ} {m n : Nat} {x y : List R} {o : Option (List R)}
    {ye ys : List ℝ} (hm : m ≤ y.length) (h : Opt3 (YQ (Below ρ v fac K y m)) o (some ye) (some ys))
    (he : IsMv (v alpha) (v beta) M m n (x.map v) (y.map v) ye)
    (hs : IsMv |v alpha| |v beta| N m n (szs v x) (szs v y) ys) :
    ∃ y', o = some y' ∧ MvErr ρ v K alpha beta M N m n x y y' := by
  obtain ⟨y', rfl, h⟩ := h.left
  obtain ⟨l1, l2⟩ := h.len
  have hl : y'.length = y.length := by rw [← l1, he.length, List.length_map]
  refine ⟨y', rfl, hl, ?_, ?_⟩
  · intro i hi
    have hc := h i
    rw [he.rows i hi, hs.rows i hi, List.getElem?_eq_getElem (show i < y'.length by omega)] at hc
    have hl : i < y.length := by omega
    refine ⟨y[i], y'[i], List.getElem?_eq_getElem hl, List.getElem?_eq_getElem (by omega), ?_⟩
    have := (hc.1 hi).1.2
    simpa [List.getD, List.getElem?_eq_getElem hl, Rounding.g] using this
  · intro i hi
    have hc := h i
    rcases h1 : y'[i]? with _ | q <;> rcases h2 : ye[i]? with _ | q' <;> rcases h3 : ys[i]? with _ | q'' <;>
      rw [h1, h2, h3] at hc <;> try exact hc.elim
    · rw [List.getElem?_eq_none_iff] at h1
      rw [List.getElem?_eq_none (by omega)]
    · exact (hc.2 hi).symm

theorem csrmvTri_rel [One R] [DecidableEq R] (hR : Contracts ρ v fac) (h1 : v 1 = 1) {ind ptr idiag iurow : List Int}
    {val x y : List R} (hx : ∀ a ∈ x, fac a = none) (hy : ∀ a ∈ y, fac a = none) (base : Int) (diag fill : Nat) {m : Nat}
    (hm : m ≤ y.length) (alpha beta : R) (N : Nat → Nat)
    (hN : ∀ i, i < m → ∀ b, triBounds fill ptr idiag iurow i = some b →
      (b.2 + triEnd fill diag - (b.1 + triStart fill diag)).toNat ≤ N i) :
    Opt3 (YQ (Below ρ v fac (fun i => N i + 4) y m)) (csrmvTri base alpha m diag fill val ind ptr idiag iurow x beta y)
      (csrmvTri base (v alpha) m diag fill (val.map v) ind ptr idiag iurow (x.map v) (v beta) (y.map v))
      (csrmvTri base |v alpha| m diag fill (szs v val) ind ptr idiag iurow (szs v x) |v beta| (szs v y)) := by
  unfold csrmvTri
  refine Opt3.bind (scaleY_rel hR h1 beta hm hy) fun a b c h => ?_
  refine Opt3.mono (P := YQ (Below ρ v fac (fun i => if i < ((m : Int) - 0).toNat then N i + 4 else 1) y m)) ?_
    (Opt3.forC (fun j => YQ (Below ρ v fac (fun i => if i < j then N i + 4 else 1) y m)) (by simpa using h) ?_)
  · intro a b c h
    refine h.mono fun i r e s hb => ⟨fun hi => ?_, hb.2⟩
    have : NearC ρ v fac (if i < ((m : Int) - 0).toNat then N i + 4 else 1) e s r := hb.1 hi
    rwa [if_pos (by omega)] at this
  · intro j hj a b c h
    rw [zero_add] at hj ⊢
    have hj' : j < m := by omega
    cases hb : triBounds fill ptr idiag iurow j with
    | none => trivial
    | some b =>
      have hN := hN j hj' b hb
      simp only [Option.bind_eq_bind, Option.bind_some]
      refine Opt3.bind (addIf_rel hR hx _ j (NearC.zero hR)) fun r e s hr => ?_
      refine Opt3.bind (dotSeq_rel hR hx base _ _ (by omega) hr) fun r e s hr => ?_
      refine Opt3.bind (addIf_rel hR hx _ j hr) fun r e s hr => ?_
      have ht := NearC.mul_left hR alpha hr
      have hm3 : YQ (Below ρ v fac (fun i => if i < j then N i + 4 else if i = j then N j + 3 else 1) y m) _ _ _ :=
        h.mono fun i r e s hb => ⟨fun hi => (hb.1 hi).mono (by dsimp only; split_ifs <;> omega), hb.2⟩
      refine Opt3.mono ?_ (addAt_rel hR hj' hm3 (k := N j + 3) (by simp) (ht.mono (by omega)))
      intro a b c h
      refine h.mono fun i r e s hb => ⟨fun hi => (hb.1 hi).mono ?_, hb.2⟩
      dsimp only
      rcases eq_or_ne i j with rfl | hij
      · simp
      · rw [if_neg hij]; split_ifs <;> omega

end Verif
