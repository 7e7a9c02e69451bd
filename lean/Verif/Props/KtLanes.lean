/-
C59  The vector primitives compute what they stand for, lane by lane, in every width.
-/
import Verif.Proofs.KtLoads
import Verif.Props.Csrmv
import Mathlib.Algebra.Order.Field.Rat

namespace Verif
open Model Spec Proofs

namespace Props

/-! ### products of complex registers -/

/-- **C59** The product of two registers of complex numbers is, in every element, exactly the stated
sequence of floating-point operations: fused operations in 256 and 512 bits, none in 128 bits.  No law of
arithmetic is used. -/
theorem C59_mul {T : Type} [Zero T] [Add T] [Sub T] [Mul T] (F : LaneFpu T) (w : Bsz) (t : LaneTy)
    {u v : List (T × T)} (hu : u.length = elemCount w t) (hv : v.length = elemCount w t) :
    ktMulC F w t (inter u) (inter v) = inter (List.zipWith (cmulOps F w t) u v) :=
  ktMulC_ops F w t hu hv

/-- **C59** Without rounding, the vector operations are the operations of the complex numbers: product,
multiply-add, multiply-subtract, sum, difference and conjugate. -/
theorem C59_complex {S : Type} [CommRing S] {F : LaneFpu S} (hF : FmaExact F) (w : Bsz) (t : LaneTy)
    {a b c : List (Cx S)} (ha : a.length = elemCount w t) (hb : b.length = elemCount w t) :
    ktMulC F w t (inter (reIm a)) (inter (reIm b)) = inter (reIm (List.zipWith (· * ·) a b)) ∧
    ktFmaddC F w t (inter (reIm a)) (inter (reIm b)) (inter (reIm c))
      = inter (reIm (List.zipWith (· + ·) (List.zipWith (· * ·) a b) c)) ∧
    ktFmsubC F w t (inter (reIm a)) (inter (reIm b)) (inter (reIm c))
      = inter (reIm (List.zipWith (· - ·) (List.zipWith (· * ·) a b) c)) ∧
    ktAdd (inter (reIm a)) (inter (reIm b)) = inter (reIm (List.zipWith (· + ·) a b)) ∧
    ktSub (inter (reIm a)) (inter (reIm b)) = inter (reIm (List.zipWith (· - ·) a b)) ∧
    ktConjC w t (inter (reIm a)) = inter (reIm (a.map fun z => ⟨z.re, -z.im⟩)) := by
  simp only [← pack_inter]
  have hm := ktMulC_exact hF w t ha hb
  refine ⟨hm, ?_, ?_, ?_, ?_, ?_⟩
  · unfold ktFmaddC ktAdd mmAdd
    rw [hm]
    exact pack_zip _ _ (fun _ _ => by simp) _ _
  · unfold ktFmsubC ktSub mmSub
    rw [hm]
    exact pack_zip _ _ (fun _ _ => by simp) _ _
  · exact pack_zip _ _ (fun _ _ => by simp) _ _
  · exact pack_zip _ _ (fun _ _ => by simp) _ _
  · rw [pack_inter, ktConjC_ops w t (by rw [reIm_len, ha]), pack_inter]
    simp [reIm, Function.comp_def]

/-- **C59** The horizontal sum of a register is the sum of its elements: of the lanes for real data, of the
complex numbers for complex data. -/
theorem C59_hsum {S : Type} [CommRing S] {red : List S → S} (w : Bsz) (t : LaneTy)
    (hr : w = .b512 → Sums red (laneCount w t)) :
    (∀ v : List S, v.length = laneCount w t → ktHsum red w t v = v.sum) ∧
    (∀ z : List (Cx S), z.length = elemCount w t →
      ktHsumC w t (inter (reIm z)) = (z.sum.re, z.sum.im)) := by
  refine ⟨fun v hv => ktHsum_exact w t hr hv, fun z hz => ?_⟩
  rw [← pack_inter]
  exact ktHsumC_pack w t hz

/-- **C59** The dot product of two registers, and the one with the second register conjugated. -/
theorem C59_dot {S : Type} [CommRing S] {F : LaneFpu S} (hF : FmaExact F) {red : List S → S} (w : Bsz) (t : LaneTy)
    (hr : w = .b512 → Sums red (laneCount w t)) :
    (∀ u v : List S, u.length = laneCount w t → v.length = laneCount w t →
      ktDot red w t u v = (List.zipWith (· * ·) u v).sum) ∧
    (∀ a b : List (Cx S), a.length = elemCount w t → b.length = elemCount w t →
      (let s := (List.zipWith (· * ·) a b).sum
       ktDotC F w t (inter (reIm a)) (inter (reIm b)) = (s.re, s.im)) ∧
      (let s := (List.zipWith (fun x y => x * ⟨y.re, -y.im⟩) a b).sum
       ktCdotC F w t (inter (reIm a)) (inter (reIm b)) = (s.re, s.im))) := by
  refine ⟨fun u v hu hv => ?_, fun a b ha hb => ⟨?_, ?_⟩⟩
  · show ktHsum red w t (List.zipWith (· * ·) u v) = _
    exact ktHsum_exact w t hr (by simp [hu, hv])
  · simp only [ktDotC]
    rw [(C59_complex hF w t (c := []) ha hb).1]
    exact (C59_hsum (red := red) w t hr).2 _ (by simp [ha, hb])
  · simp only [ktCdotC, ktDotC]
    rw [(C59_complex hF w t (c := []) hb hb).2.2.2.2.2,
      (C59_complex hF w t (c := []) ha (by simp [hb])).1, (C59_hsum (red := red) w t hr).2 _ (by simp [ha, hb])]
    simp [List.zipWith_map_right]

/-- **C59** The quotient of two registers of complex numbers: every element times the divisor is the
dividend, wherever the sum of the squares of the parts of the divisor is not zero. -/
theorem C59_div {S : Type} [Field S] {F : LaneFpu S} (hF : FmaExact F) (w : Bsz) (t : LaneTy)
    {a b : List (Cx S)} (ha : a.length = elemCount w t) (hb : b.length = elemCount w t)
    (h0 : ∀ z ∈ b, z.re * z.re + z.im * z.im ≠ 0) :
    ∃ q : List (Cx S), q.length = elemCount w t ∧ ktDivC F w t (inter (reIm a)) (inter (reIm b)) = inter (reIm q) ∧
      List.zipWith (· * ·) q b = a := by
  refine ⟨List.zipWith (fun x y : Cx S => (⟨(x * ⟨y.re, -y.im⟩).re / (y.re * y.re + y.im * y.im),
    (x * ⟨y.re, -y.im⟩).im / (y.re * y.re + y.im * y.im)⟩ : Cx S)) a b, by simp [ha, hb], ?_, ?_⟩
  · unfold ktDivC mmDiv
    rw [(C59_complex hF w t (c := []) hb hb).2.2.2.2.2, (C59_complex hF w t (c := []) ha (by simp [hb])).1,
      ktPow2C_ops w t (by rw [reIm_len, hb]), inter_zip]
    congr 1
    simp only [reIm, List.zipWith_map_right, List.map_zipWith, List.map_map]
    clear ha hb h0
    induction a generalizing b with
    | nil => rfl
    | cons x a ih =>
      cases b with
      | nil => rfl
      | cons y b =>
        simp only [List.zipWith_cons_cons]
        rw [ih]
        simp [add_comm (y.im * y.im)]
  · have hl : a.length = b.length := by rw [ha, hb]
    clear ha hb
    induction a generalizing b with
    | nil => rfl
    | cons x a ih =>
      cases b with
      | nil => simp at hl
      | cons y b =>
        have hy := h0 y (by simp)
        simp only [List.zipWith_cons_cons]
        rw [ih (fun z hz => h0 z (by simp [hz])) (by simpa using hl)]
        congr 1
        obtain ⟨n, hn⟩ : ∃ n, n = y.re * y.re + y.im * y.im := ⟨_, rfl⟩
        rw [← hn] at hy ⊢
        ext
        · simp
          field_simp
          rw [hn]
          ring
        · simp
          field_simp
          rw [hn]
          ring

/-! ### the blocks of the kernels -/

/-- the accumulators of a kernel after the blocks `Ls` of factors -/
def accum {R : Type} (V : Vec R) (Ls : List (List (R × R))) : V.σ := Ls.foldl (fun s L => V.fma L s) V.zero

theorem accum_sum {R : Type} [CommRing R] [DecidableEq R] {V : Vec R} {K : Nat} (hV : V.Ok K)
    {Ls : List (List (R × R))} (hL : ∀ L ∈ Ls, L.length = K) :
    V.hsum (accum V Ls) = ((Ls.flatten).map fun ab => ab.1 * ab.2).sum := by
  obtain ⟨_, I, h1, h2, h3⟩ := hV
  have key : ∀ (Ls : List (List (R × R))) s, (∀ L ∈ Ls, L.length = K) → I s →
      V.hsum (Ls.foldl (fun s L => V.fma L s) s) = V.hsum s + ((Ls.flatten).map fun ab => ab.1 * ab.2).sum := by
    intro Ls
    induction Ls with
    | nil => intro s _ _; simp
    | cons L Ls ih =>
      intro s hL hs
      obtain ⟨k1, k2⟩ := h3 L s (hL L (by simp)) hs
      simp only [List.foldl_cons]
      rw [ih _ (fun L' h' => hL L' (by simp [h'])) k1, k2]
      simp [add_assoc]
  rw [accum, key Ls _ hL h1, h2, zero_add]

/-- **C59** For any number of blocks, the horizontal sum of the accumulators of a kernel is the sum of all the
products: with kt_fmadd_p and kt_hsum_p on real and on complex data, and with the pair of accumulators of
kt_fmadd_B and kt_hsum_B on complex data — in every width and precision. -/
theorem C59_blocks {S : Type} [CommRing S] [DecidableEq S] {F : LaneFpu S} (hF : FmaExact F) {red : List S → S}
    (w : Bsz) (t : LaneTy) (hr : w = .b512 → Sums red (laneCount w t)) :
    (∀ Ls : List (List (S × S)), (∀ L ∈ Ls, L.length = laneCount w t) →
      (vecKt F red w t).hsum (accum (vecKt F red w t) Ls) = (Ls.flatten.map fun ab => ab.1 * ab.2).sum) ∧
    (∀ Ls : List (List (Cx S × Cx S)), (∀ L ∈ Ls, L.length = elemCount w t) →
      (vecKtC F w t).hsum (accum (vecKtC F w t) Ls) = (Ls.flatten.map fun ab => ab.1 * ab.2).sum ∧
      (vecKtB F red w t).hsum (accum (vecKtB F red w t) Ls) = (Ls.flatten.map fun ab => ab.1 * ab.2).sum) :=
  ⟨fun _ hL => accum_sum (vecKt_ok hF w t hr) hL,
    fun _ hL => ⟨accum_sum (vecKtC_ok hF w t) hL, accum_sum (vecKtB_ok hF w t hr) hL⟩⟩

/-- **C59** So the registers meet the assumption under which the templated kernels are proved (products C17,
C19, C21, C31, triangular solves C27, C51, TCSR C44, dot products C33). -/
theorem C59_registers {S : Type} [CommRing S] [DecidableEq S] {F : LaneFpu S} (hF : FmaExact F) {red : List S → S}
    (w : Bsz) (t : LaneTy) (hr : w = .b512 → Sums red (laneCount w t)) :
    (vecKt F red w t).Ok (laneCount w t) ∧ (vecKtC F w t).Ok (elemCount w t) ∧
      (vecKtB F red w t).Ok (elemCount w t) :=
  ⟨vecKt_ok hF w t hr, vecKtC_ok hF w t, vecKtB_ok hF w t hr⟩

/-- **C59** For instance the templated product with registers of any width: `y = alpha*A*x + beta*y`, real and
complex. -/
theorem C59_csrmv {S : Type} [CommRing S] [DecidableEq S] {F : LaneFpu S} (hF : FmaExact F) {red : List S → S}
    (w : Bsz) (t : LaneTy) (hr : w = .b512 → Sums red (laneCount w t)) :
    (∀ (A : Csr S), A.WF → ∀ (alpha beta : S) (x y : List S), A.n ≤ x.length → A.m ≤ y.length →
      ∃ y', csrmvGn (.kt (laneCount w t) (vecKt F red w t)) A.base alpha A.m A.val A.ind A.ptr x beta y = some y' ∧
        IsMv alpha beta A.mat A.m A.n x y y') ∧
    (∀ (A : Csr (Cx S)), A.WF → ∀ (alpha beta : Cx S) (x y : List (Cx S)), A.n ≤ x.length → A.m ≤ y.length →
      ∃ y', csrmvGn (.kt (elemCount w t) (vecKtB F red w t)) A.base alpha A.m A.val A.ind A.ptr x beta y = some y' ∧
        IsMv alpha beta A.mat A.m A.n x y y') :=
  ⟨fun A hA alpha beta x y hx hy =>
      C17_value (.kt _ (vecKt F red w t)) (vecKt_ok hF w t hr) A hA alpha beta x y hx hy,
    fun A hA alpha beta x y hx hy =>
      C17_value (.kt _ (vecKtB F red w t)) (vecKtB_ok hF w t hr) A hA alpha beta x y hx hy⟩

/-! ### loads and stores -/

/-- **C59** A load reads exactly the elements of the register: it has no defined result exactly if one of them
is outside the array.  Direct and through an index array, real (lanes) and complex (elements). -/
theorem C59_load {T : Type} (w : Bsz) (t : LaneTy) :
    (∀ (mem : List T) (p : Int) v, ktLoadu w t mem p = some v ↔
      v.length = laneCount w t ∧ ∀ i : Nat, i < laneCount w t → rd mem (p + i) = v[i]?) ∧
    (∀ (mem : List T) (o : Int) (b : List Int) (q : Int) v, ktSet w t mem o b q = some v ↔
      v.length = laneCount w t ∧
        ∀ i : Nat, i < laneCount w t → ((rd b (q + i)).bind fun c => rd mem (o + c)) = v[i]?) ∧
    (∀ (mem : List (T × T)) (p : Int) v, ktLoadu w t (inter mem) (2 * p) = some v ↔
      ∃ z, inter z = v ∧ z.length = elemCount w t ∧ ∀ k : Nat, k < elemCount w t → rd mem (p + k) = z[k]?) ∧
    (∀ (mem : List (T × T)) (o : Int) (b : List Int) (q : Int) v, ktSetC w t (inter mem) o b q = some v ↔
      ∃ z, inter z = v ∧ z.length = elemCount w t ∧
        ∀ k : Nat, k < elemCount w t → ((rd b (q + k)).bind fun c => rd mem (o + c)) = z[k]?) := by
  refine ⟨fun mem p v => mapM_range_iff, fun mem o b q v => mapM_range_iff, fun mem p v => ?_,
    fun mem o b q v => ?_⟩
  · rw [load_pairs, Option.map_eq_some_iff]
    simp only [mapM_range_iff, and_comm]
  · rw [set_pairs, Option.map_eq_some_iff]
    simp only [mapM_range_iff, and_comm]

/-- **C59** A masked load reads exactly the first `L` elements and fills the others with zeros; memory (and
indices) behind them are not touched.  All three forms: with selected lanes, with the mask of AVX-512, and
through an index array. -/
theorem C59_maskz {T : Type} [Zero T] (w : Bsz) (t : LaneTy) (L : Nat) :
    (∀ (mem : List T) (b : Int) v,
      (ktMaskz w t L mem b = some v ↔ v.length = laneCount w t ∧
        ∀ i : Nat, i < laneCount w t → (if i < L then rd mem (b + i) else some 0) = v[i]?) ∧
      ktMaskz512 w t L mem b = ktMaskz w t L mem b) ∧
    (∀ (mem : List T) (o : Int) (b : List Int) (q : Int) v, ktMaskzInd w t L mem o b q = some v ↔
      v.length = laneCount w t ∧ ∀ i : Nat, i < laneCount w t →
        (if i < L then (rd b (q + i)).bind fun c => rd mem (o + c) else some 0) = v[i]?) ∧
    (∀ (mem : List (T × T)) (b : Int) v,
      (ktMaskzC w t L (inter mem) b = some v ↔ ∃ z, inter z = v ∧ z.length = elemCount w t ∧
        ∀ k : Nat, k < elemCount w t → (if k < L then rd mem (b + k) else some (0, 0)) = z[k]?) ∧
      ktMaskz512C w t L (inter mem) b = ktMaskzC w t L (inter mem) b) ∧
    (∀ (mem : List (T × T)) (o : Int) (b : List Int) (q : Int) v, ktMaskzIndC w t L (inter mem) o b q = some v ↔
      ∃ z, inter z = v ∧ z.length = elemCount w t ∧ ∀ k : Nat, k < elemCount w t →
        (if k < L then (rd b (q + k)).bind fun c => rd mem (o + c) else some (0, 0)) = z[k]?) := by
  have e1 : ∀ (mem : List T) (b : Int), ktMaskz w t L mem b
      = (List.range (laneCount w t)).mapM fun (i : Nat) => if i < L then rd mem (b + i) else some 0 := by
    intro mem b
    unfold ktMaskz
    congr 1
    funext i
    unfold ktPz
    by_cases h : i < L
    · rw [if_pos h, if_pos (by omega)]
    · rw [if_neg h, if_neg (by omega)]
  have e2 : ∀ (mem : List T) (o : Int) (b : List Int) (q : Int), ktMaskzInd w t L mem o b q
      = (List.range (laneCount w t)).mapM fun (i : Nat) =>
          if i < L then (rd b (q + i)).bind fun c => rd mem (o + c) else some 0 := by
    intro mem o b q
    unfold ktMaskzInd
    congr 1
    funext i
    by_cases h : i < L
    · rw [if_pos h, if_pos (by omega)]; rfl
    · rw [if_neg h, if_neg (by omega)]
  refine ⟨fun mem b v => ⟨?_, ?_⟩, fun mem o b q v => ?_, fun mem b v => ⟨?_, ?_⟩, fun mem o b q v => ?_⟩
  · rw [e1, mapM_range_iff]
  · rw [e1, ktMaskz512, maskz512_lanes]
  · rw [e2, mapM_range_iff]
  · rw [maskz_pairs, Option.map_eq_some_iff]
    simp only [mapM_range_iff, and_comm]
  · rw [maskz_pairs, maskz512_pairs]
  · rw [maskzInd_pairs, Option.map_eq_some_iff]
    simp only [mapM_range_iff, and_comm]

/-- **C59** A register is filled with one value, real or complex. -/
theorem C59_set1 {T : Type} (w : Bsz) (t : LaneTy) (x re im : T) :
    ktSet1 w t x = List.replicate (laneCount w t) x ∧
    ktSet1C w t re im = inter (List.replicate (elemCount w t) (re, im)) := by
  refine ⟨rfl, ?_⟩
  cases w <;> cases t <;> rfl

/-- **C59** A store writes the lanes of the register to consecutive positions and nothing else; a load from the
same place returns the register. -/
theorem C59_store {T : Type} [Zero T] (w : Bsz) (t : LaneTy) {v mem : List T} {p : Int}
    (hv : v.length = laneCount w t) (h0 : 0 ≤ p) (h1 : p + v.length ≤ mem.length) :
    ∃ m, ktStoreu v mem p = some m ∧ m.length = mem.length ∧
      (∀ k, rd m k = if p ≤ k ∧ k < p + v.length then v[(k - p).toNat]? else rd mem k) ∧
      ktLoadu w t m p = some v := by
  obtain ⟨m, e, hl, hm⟩ := store_spec h0 h1
  refine ⟨m, e, hl, hm, ((C59_load w t).1 m p v).2 ⟨hv, fun i hi => ?_⟩⟩
  rw [hm, if_pos (by omega), show (p + (i : Int) - p).toNat = i by omega]

/-- **C59** A scatter to distinct positions updates every one of them with its element — overwriting, adding or
subtracting — and leaves the rest of the array alone. -/
theorem C59_scatter {T : Type} [Zero T] [Add T] [Sub T] (op : ScatterOp) {a mem : List T} {o : Int} {b : List Int}
    {q : Int} {ix : Nat → Int} {old : Nat → T} (hb : ∀ k : Nat, k < a.length → rd b (q + k) = some (ix k))
    (hm : ∀ k, k < a.length → rd mem (o + ix k) = some (old k))
    (hd : ∀ i j, i < a.length → j < a.length → ix i = ix j → i = j) :
    ∃ m, ktScatter op a mem o b q = some m ∧ m.length = mem.length ∧
      (∀ k (hk : k < a.length), rd m (o + ix k) = some (match op with
        | .none => a[k]
        | .add => old k + a[k]
        | .sub => old k - a[k])) ∧
      ∀ c, (∀ k, k < a.length → c ≠ o + ix k) → rd m c = rd mem c := by
  obtain ⟨m, e, h1, h2, h3⟩ := scatter_spec op hb hm hd
  refine ⟨m, e, h1, fun k hk => ?_, h3⟩
  rw [h2 k hk]
  have : lane a k = a[k] := by simp [lane, hk]
  rw [this]
  cases op <;> rfl

/-- **C59** The loads of a block of the kernels: the values next to each other, the entries of the vector
through the column indices (the pointer of the vector is shifted by the base). -/
theorem C59_lanes {R : Type} (w : Bsz) (t : LaneTy) {ind : List Int} {val x : List R} {base p : Int}
    {L : List (R × R)} (h : lanesAt (laneCount w t) ind val x base p = some L) :
    ktLoadu w t val p = some (L.map (·.1)) ∧ ktSet w t x (-base) ind p = some (L.map (·.2)) := by
  obtain ⟨hl, hL⟩ := mapM_range_iff.1 h
  refine ⟨mapM_range_iff.2 ⟨by simp [hl], fun i hi => ?_⟩, mapM_range_iff.2 ⟨by simp [hl], fun i hi => ?_⟩⟩
  all_goals
    have := hL i hi
    rw [List.getElem?_eq_getElem (by omega)] at this
    simp only [Option.bind_eq_bind, Option.bind_eq_some_iff] at this
    obtain ⟨c, h1, v, h2, y, h3, h4⟩ := this
    rw [List.getElem?_map, List.getElem?_eq_getElem (by omega)]
    simp only [Option.map_some]
    rw [← Option.some_inj.1 h4]
  · exact h2
  · simp only [Option.bind_eq_bind, h1, Option.bind_some, show -base + c = c - base by ring]
    exact h3

/-! ### examples -/

/-- exact fused operations -/
theorem plain_exact {S : Type} [Ring S] : FmaExact (LaneFpu.plain : LaneFpu S) := fun _ _ _ => ⟨rfl, rfl⟩

/-- the plain sum meets the assumption on the compiler's reduction -/
example : Sums (List.sum : List ℚ → ℚ) (laneCount .b512 .flt) := fun _ _ => rfl

/-- `(1 + 2i)(3 + 4i) = -5 + 10i` and `(1 - i)(2 + 5i) = 7 + 3i`, in 256 bits -/
example : ktMulC (LaneFpu.plain : LaneFpu ℤ) .b256 .dbl [1, 2, 1, -1] [3, 4, 2, 5] = [-5, 10, 7, 3] := by
  decide +kernel

/-- the same in 128 bits, float -/
example : ktMulC (LaneFpu.plain : LaneFpu ℤ) .b128 .flt [1, 2, 1, -1] [3, 4, 2, 5] = [-5, 10, 7, 3] := by
  decide +kernel

/-- three blocks in the pair of accumulators, 512 bits, double -/
example : (vecKtB (LaneFpu.plain : LaneFpu ℤ) List.sum .b512 .dbl).hsum
    (accum (vecKtB (LaneFpu.plain : LaneFpu ℤ) List.sum .b512 .dbl)
      [[(⟨1, 2⟩, ⟨3, 4⟩), (⟨1, -1⟩, ⟨2, 5⟩), (⟨0, 1⟩, ⟨0, 1⟩), (⟨2, 0⟩, ⟨0, 3⟩)],
       [(⟨1, 0⟩, ⟨1, 1⟩), (⟨0, 0⟩, ⟨2, 5⟩), (⟨0, 1⟩, ⟨0, 1⟩), (⟨2, 0⟩, ⟨0, 3⟩)]])
    = ⟨1, 26⟩ := by
  decide +kernel

/-- the hypotheses of `C59_div` -/
example : ∀ z ∈ ([⟨3, 4⟩, ⟨1, -1⟩] : List (Cx ℚ)), z.re * z.re + z.im * z.im ≠ 0 := by
  decide +kernel

/-- a masked load at the end of an array -/
example : ktMaskz .b256 .dbl 3 [5, 6, 7, 8, 9] 2 = some [7, 8, 9, 0] ∧
    ktMaskz512 .b256 .dbl 3 [5, 6, 7, 8, 9] 2 = some [7, 8, 9, 0] ∧
    ktMaskz .b256 .dbl 4 [5, 6, 7, 8, 9] 2 = (none : Option (List ℤ)) := by
  decide +kernel

/-- a complex gather -/
example : ktSetC .b256 .dbl [1, 2, 3, 4, 5, 6] (-1) [9, 3, 1] 1 = some ([5, 6, 1, 2] : List ℤ) := by
  decide +kernel

/-- a scatter that subtracts -/
example : ktScatter .sub [1, 2] [10, 20, 30, 40] 0 [3, 1] 0 = some ([10, 18, 30, 39] : List ℤ) := by
  decide +kernel

end Props
end Verif
