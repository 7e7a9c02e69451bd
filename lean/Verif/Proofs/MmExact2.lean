import Verif.Proofs.MmExact
import Verif.Spec.MmExact

/-!
The elements of a sparse times dense product, in an arithmetic without laws: rows and dot products.
-/

namespace Verif
open Model

variable {R : Type}

/-! ### dot products -/

section dots
variable [Zero R] [Add R] [Mul R] {cj : R → R} {alpha beta : R} {A : Csr R} {B : List R} {n ldb ldc : Nat}

omit [Add R] in
theorem mm_pair (hA : A.WF) (hB : MmReads true A B n ldb) {i j : Nat} (hi : i < A.m) (hj : j < n) {t : Nat}
    (ht : t < (A.row i).length) :
    ∃ c v b, rd A.ind (A.p i - A.base + t) = some c ∧ rd A.val (A.p i - A.base + t) = some v ∧
      rd B ((j : Int) * ldb - A.base + c) = some b ∧
      (mmPairs cj true A B ldb i j)[t]? = some (cj v, b) := by
  have hrl := Csr.row_length hA hi
  obtain ⟨c, v, e1, e2, e3⟩ := Csr.row_getElem? hA hi (t := t) (by omega)
  have hr := Csr.row_range hA (List.mem_of_getElem? e3)
  have hr : 0 ≤ c - A.base ∧ c - A.base < A.n := hr
  have hb := hB (c - A.base).toNat j (by omega) hj
  have e4 : (j : Int) * ldb - A.base + c = ((denseOff true ldb (c - A.base).toNat j : Nat) : Int) := by
    unfold denseOff
    rw [if_pos rfl]
    push_cast
    rw [Int.toNat_of_nonneg hr.1]; ring
  refine ⟨c, v, B.getD (denseOff true ldb (c - A.base).toNat j) 0, e1, e2, ?_, ?_⟩
  · rw [e4]; exact (Rep.of_list B 0).rd_nat hb
  · unfold mmPairs
    rw [List.getElem?_map, e3]
    rfl

theorem dotSeq_from (hA : A.WF) (hB : MmReads true A B n ldb) {i j : Nat} (hi : i < A.m) (hj : j < n) {k : Nat}
    (hk : k ≤ (A.row i).length) (r : R) :
    mmDotSeq (mmOf cj alpha beta A B n ldb ldc) ((j : Int) * ldb - A.base) (A.p i + k) (A.p (i + 1)) r
      = some (dotLeft r ((mmPairs cj true A B ldb i j).drop k)) := by
  have hrl := Csr.row_length hA hi
  have hL : (mmPairs cj true A B ldb i j).length = (A.row i).length := by unfold mmPairs; simp
  have hmn := hA.ptr_mono i hi
  unfold mmDotSeq
  obtain ⟨s, e, t, ht, hs⟩ := forC_inv (lo := A.p i + k) (hi := A.p (i + 1)) (s := r)
    (f := fun k r => (mmTerm cj A.ind A.val B ((j : Int) * ldb - A.base) (k - A.base)).bind fun t => some (t + r))
    (P := fun x s => ∃ t : Nat, x = A.p i + k + t ∧
      s = dotLeft r (((mmPairs cj true A B ldb i j).drop k).take t)) (by omega)
    ⟨0, by simp, by simp [dotLeft]⟩ (by
      rintro x s h1 h2 ⟨t, rfl, rfl⟩
      have hkt : k + t < (A.row i).length := by omega
      obtain ⟨c, v, b, e1, e2, e3, e4⟩ := mm_pair (cj := cj) hA hB hi hj hkt
      rw [show A.p i - A.base + ((k + t : Nat) : Int) = A.p i + k + t - A.base by push_cast; ring] at e1 e2
      refine ⟨cj v * b + dotLeft r (((mmPairs cj true A B ldb i j).drop k).take t), ?_, t + 1, by push_cast; ring, ?_⟩
      · unfold mmTerm
        rw [e1, Option.bind_eq_bind, Option.bind_some, e2, Option.bind_eq_bind, Option.bind_some, e3]
        rfl
      · rw [List.take_add_one, List.getElem?_drop, e4]
        unfold dotLeft
        rw [List.foldl_append]
        rfl)
  have e5 : (((mmPairs cj true A B ldb i j).drop k).take t) = (mmPairs cj true A B ldb i j).drop k :=
    List.take_of_length_le (by rw [List.length_drop, hL]; omega)
  rw [e5] at hs
  subst hs
  exact e

theorem dotLanes_row (V : Vec R) {K : Nat} (hK : 0 < K) (hA : A.WF) (hB : MmReads true A B n ldb) {i j : Nat}
    (hi : i < A.m) (hj : j < n) :
    mmDotK V K (mmOf cj alpha beta A B n ldb ldc) ((j : Int) * ldb - A.base) (A.p i) (A.p (i + 1))
      = some (dotLanes V K (mmPairs cj true A B ldb i j)) := by
  have hrl := Csr.row_length hA hi
  have hL : (mmPairs cj true A B ldb i j).length = (A.row i).length := by unfold mmPairs; simp
  have hmn := hA.ptr_mono i hi
  generalize hLL : mmPairs cj true A B ldb i j = L at *
  have hlen : A.p (i + 1) - A.p i = (L.length : Int) := by omega
  have hdiv : (A.p (i + 1) - A.p i).tdiv K = ((L.length / K : Nat) : Int) := by
    rw [hlen, Int.tdiv_eq_ediv_of_nonneg (by omega), Int.natCast_ediv]
  have hmul : K * (L.length / K) ≤ L.length := Nat.mul_div_le _ _
  have e1 : A.p (i + 1) - (A.p (i + 1) - A.p i - K * ((A.p (i + 1) - A.p i).tdiv K))
      = A.p i + ((K * (L.length / K) : Nat) : Int) := by
    rw [hdiv]; push_cast; ring
  obtain ⟨v, ev, hv⟩ := forS_inv hK e1 (s := V.zero)
    (P := fun q v => v = (List.range q).foldl (fun v t => V.fma ((L.drop (K * t)).take K) v) V.zero)
    (f := fun idx v => (mmLanes K (mmOf cj alpha beta A B n ldb ldc) ((j : Int) * ldb - A.base) (idx - A.base)).bind
      fun L => some (V.fma L v)) rfl (by
    rintro t s ht rfl
    have hr : K * (t + 1) ≤ K * (L.length / K) := Nat.mul_le_mul_left _ ht
    rw [Nat.mul_add, Nat.mul_one] at hr
    have eL : mmLanes K (mmOf cj alpha beta A B n ldb ldc) ((j : Int) * ldb - A.base)
        (A.p i + (K * t : Nat) - A.base) = some ((L.drop (K * t)).take K) := by
      have hl : ((L.drop (K * t)).take K).length = K := by
        rw [List.length_take, List.length_drop]; omega
      unfold mmLanes
      have hmap : (L.drop (K * t)).take K = (List.range K).map fun l => (L.drop (K * t)).getD l (0, 0) := by
        refine List.ext_getElem (by rw [hl]; simp) fun l h1 h2 => ?_
        have h3 : l < (L.drop (K * t)).length := by rw [List.length_drop]; omega
        rw [List.getElem_take, List.getElem_map, List.getElem_range, List.getD_eq_getElem?_getD,
          List.getElem?_eq_getElem h3]
        rfl
      rw [hmap]
      apply mapM_range_some
      intro l hl
      obtain ⟨c, v, b, g1, g2, g3, g4⟩ := mm_pair (cj := cj) hA hB hi hj (t := K * t + l) (by omega)
      rw [hLL] at g4
      rw [show A.p i - A.base + ((K * t + l : Nat) : Int) = A.p i + (K * t : Nat) - A.base + l by push_cast; ring] at g1 g2
      simp only [mmOf]
      rw [g1, Option.bind_eq_bind, Option.bind_some, g2, Option.bind_eq_bind, Option.bind_some, g3,
        List.getD_eq_getElem?_getD, List.getElem?_drop, g4]
      rfl
    refine ⟨_, by rw [eL]; rfl, ?_⟩
    rw [List.range_succ, List.foldl_append]
    rfl)
  have hrest := dotSeq_from (cj := cj) (alpha := alpha) (beta := beta) (ldc := ldc) hA hB hi hj
    (k := K * (L.length / K)) (by omega) (if L.length / K ≠ 0 then 0 + V.hsum v else 0)
  rw [hLL, hv] at hrest
  unfold mmDotK
  show (forS _ _ _ _ _).bind _ = _
  refine (congrArg (fun o => Option.bind o _) ev).trans ?_
  show mmDotSeq _ _ _ _ _ = _
  rw [e1, hdiv]
  have e6 : (if (((L.length / K : Nat) : Int)) ≠ 0 then 0 + V.hsum v else 0)
      = if L.length / K ≠ 0 then 0 + V.hsum v else 0 := by
    by_cases h : L.length / K = 0
    · rw [if_neg (by rw [h]; simp), if_neg (fun g => g h)]
    · rw [if_pos (by exact_mod_cast h), if_pos h]
  rw [e6, hv]
  exact hrest

end dots

/-! ### rows -/

/-- the routine replaces `x` at position `s + j` by `F j x`, for all `j < n` -/
def Maps (len s n : Nat) (body : List R → Option (List R)) (F : Nat → R → R) : Prop :=
  ∀ C f, Rep C len f → ∃ C', body C = some C' ∧
    Rep C' len (fun p => if s ≤ p ∧ p < s + n then F (p - s) (f p) else f p)

theorem Maps.seq {len s n : Nat} {b1 b2 : List R → Option (List R)} {F1 F2 : Nat → R → R} (h1 : Maps len s n b1 F1)
    (h2 : Maps len s n b2 F2) : Maps len s n (fun C => (b1 C).bind b2) (fun j x => F2 j (F1 j x)) := by
  intro C f hC
  obtain ⟨C1, e1, r1⟩ := h1 C f hC
  obtain ⟨C2, e2, r2⟩ := h2 C1 _ r1
  refine ⟨C2, by simp only [e1]; exact e2, r2.congr fun p _ => ?_⟩
  by_cases hp : s ≤ p ∧ p < s + n
  · simp only [if_pos hp]
  · simp only [if_neg hp]

theorem Maps.congr {len s n : Nat} {b1 b2 : List R → Option (List R)} {F1 F2 : Nat → R → R} (h : Maps len s n b1 F1)
    (hb : ∀ C, b2 C = b1 C) (hF : ∀ j x, j < n → F2 j x = F1 j x) : Maps len s n b2 F2 := by
  intro C f hC
  obtain ⟨C1, e1, r1⟩ := h C f hC
  refine ⟨C1, by rw [hb]; exact e1, r1.congr fun p _ => ?_⟩
  by_cases hp : s ≤ p ∧ p < s + n
  · simp only [if_pos hp]
    exact (hF _ _ (by omega)).symm
  · simp only [if_neg hp]

theorem Maps.fold {α : Type} {len s n : Nat} {body : List R → α → Option (List R)} {F : α → Nat → R → R} (L : List α)
    (h : ∀ e ∈ L, Maps len s n (fun C => body C e) (F e)) :
    Maps len s n (fun C => L.foldlM body C) (fun j x => L.foldl (fun x e => F e j x) x) := by
  induction L with
  | nil =>
    intro C f hC
    exact ⟨C, rfl, hC.congr fun p _ => by simp⟩
  | cons e L ih =>
    exact (Maps.seq (h e (by simp)) (ih fun e' he' => h e' (by simp [he']))).congr
      (fun C => by rw [List.foldlM_cons]; rfl) (fun j x _ => rfl)

/-- one element after another -/
theorem maps_each {len s n : Nat} {one : Int → List R → Option (List R)} {F : Nat → R → R} (hlen : s + n ≤ len)
    (h : ∀ (k : Nat) C f, k < n → Rep C len f → ∃ C', one k C = some C' ∧
      Rep C' len (fun p => if p = s + k then F k (f p) else f p)) :
    Maps len s n (fun C => forC 0 (n : Int) one C) F := by
  intro C f hC
  refine forC_inv_nat (n := n) (s := C)
    (P := fun k C => Rep C len (fun p => if s ≤ p ∧ p < s + k then F (p - s) (f p) else f p))
    (hC.congr fun p _ => by rw [if_neg (by omega)]) ?_
  intro k C' hk hC'
  obtain ⟨C2, e, r⟩ := h k C' _ hk hC'
  refine ⟨C2, e, r.congr fun p _ => ?_⟩
  by_cases hp : p = s + k
  · rw [if_pos hp, if_neg (by omega), if_pos (by omega), show p - s = k by omega]
  · rw [if_neg hp]
    by_cases hw : s ≤ p ∧ p < s + k
    · rw [if_pos hw, if_pos (by omega)]
    · rw [if_neg hw, if_neg (by omega)]

theorem upd_rep {len i : Nat} {C : List R} {f : Nat → R} (hC : Rep C len f) (hi : i < len) {k : Int} (hk : k = (i : Int))
    (F : R → R) : ∃ C', ((rd C k).bind fun c => wr C k (F c)) = some C' ∧
      Rep C' len (fun p => if p = i then F (f p) else f p) := by
  subst hk
  rw [hC.rd_nat hi]
  obtain ⟨C2, e2, r2⟩ := hC.wr_nat (i := i) (F (f i)) hi
  refine ⟨C2, e2, r2.congr fun p _ => ?_⟩
  by_cases hp : p = i
  · subst hp; rw [Function.update_self, if_pos rfl]
  · rw [Function.update_of_ne hp, if_neg hp]

section rows
variable [Zero R] [Add R] [Mul R] {cj : R → R} {alpha beta : R} {A : Csr R} {B : List R} {n ldb ldc : Nat}

theorem mmScaleRow_maps {len i : Nat} (hlen : i * ldc + n ≤ len) :
    Maps len (i * ldc) n (mmScaleRow (mmOf cj alpha beta A B n ldb ldc) ((i : Int) * ldc)) (fun _ x => x * beta) := by
  unfold mmScaleRow
  refine maps_each hlen fun k C f hk hC => ?_
  exact upd_rep hC (i := i * ldc + k) (by omega) (by push_cast; rfl) (fun c => c * beta)

/-- one entry, scalar -/
def stepS (alpha : R) (B : List R) (ldb : Nat) (e : Nat × R) (j : Nat) (x : R) : R :=
  x + e.2 * B.getD (e.1 * ldb + j) 0 * alpha

/-- one entry, vector -/
def stepV (alpha : R) (B : List R) (ldb : Nat) (e : Nat × R) (j : Nat) (x : R) : R :=
  alpha * e.2 * B.getD (e.1 * ldb + j) 0 + x

/-- one entry, in a row of `n` elements handled by registers of `K` -/
def stepK (K n : Nat) (alpha : R) (B : List R) (ldb : Nat) (e : Nat × R) (j : Nat) (x : R) : R :=
  if j < K * (n / K) then stepV alpha B ldb e j x else stepS alpha B ldb e j x

theorem axpy_maps {len i c : Nat} {v : R} (hlen : i * ldc + n ≤ len) (hc : c < A.n) (hB : MmReads false A B n ldb) :
    Maps len (i * ldc) n (fun C => forC 0 (n : Int) (fun k C => do
        let b ← rd B (((c : Int) + A.base) * ldb - A.base * ldb + k)
        addAt C ((i : Int) * ldc + k) (cj v * b * alpha)) C) (stepS alpha B ldb (c, cj v)) := by
  refine maps_each hlen fun k C f hk hC => ?_
  have hb := hB c k hc hk
  unfold denseOff at hb
  rw [if_neg (by decide)] at hb
  have e : ((c : Int) + A.base) * ldb - A.base * ldb + (k : Int) = ((c * ldb + k : Nat) : Int) := by
    push_cast; ring
  rw [e, (Rep.of_list B 0).rd_nat hb]
  exact upd_rep hC (i := i * ldc + k) (by omega) (by push_cast; rfl)
    (fun x => x + cj v * B.getD (c * ldb + k) 0 * alpha)

theorem mmRowOne_maps (hA : A.WF) {len i : Nat} (hi : i < A.m) (hB : MmReads false A B n ldb)
    (hlen : i * ldc + n ≤ len) :
    Maps len (i * ldc) n (mmRowOne (mmOf cj alpha beta A B n ldb ldc) i)
      (fun j x => mmEltRow alpha beta x (mmPairs cj false A B ldb i j)) := by
  have hp1 := hA.rd_ptr (i := i) (by omega)
  have hp2 := hA.rd_ptr (i := i + 1) (by omega)
  rw [show ((i + 1 : Nat) : Int) = (i : Int) + 1 by omega] at hp2
  have hfold : Maps len (i * ldc) n (fun C => (A.row i).foldlM (fun C (e : Int × R) => forC 0 (n : Int) (fun k C => do
        let b ← rd B ((e.1 + A.base) * ldb - A.base * ldb + k)
        addAt C ((i : Int) * ldc + k) (cj e.2 * b * alpha)) C) C)
      (fun j x => (A.row i).foldl (fun x e => stepS alpha B ldb (e.1.toNat, cj e.2) j x) x) := by
    refine Maps.fold (F := fun (e : Int × R) j x => stepS alpha B ldb (e.1.toNat, cj e.2) j x) _ fun e he => ?_
    have hr := Csr.row_range hA he
    have := axpy_maps (cj := cj) (alpha := alpha) (v := e.2) hlen (c := e.1.toNat) (by omega) hB
    rw [Int.toNat_of_nonneg hr.1] at this
    exact this
  refine ((mmScaleRow_maps (cj := cj) (alpha := alpha) (beta := beta) (A := A) (B := B) (ldb := ldb) hlen).seq hfold).congr
    (fun C => ?_) (fun j x hj => ?_)
  · unfold mmRowOne
    show ((rd A.ptr (i : Int)).bind _) = _
    rw [hp1]
    show ((rd A.ptr ((i : Int) + 1)).bind _) = _
    rw [hp2]
    show (mmScaleRow _ _ C).bind _ = (mmScaleRow _ _ C).bind _
    refine congrArg _ (funext fun C => ?_)
    have e1 := forC_shift A.base (A.p i - A.base) (A.p (i + 1) - A.base) (fun j C =>
      mmAxpyRow (mmOf cj alpha beta A B n ldb ldc) ((i : Int) * ldc) (j - A.base) C) C
    rw [show A.base + (A.p i - A.base) = A.p i by ring,
      show A.base + (A.p (i + 1) - A.base) = A.p (i + 1) by ring] at e1
    show forC (A.p i) (A.p (i + 1)) (fun j C =>
      mmAxpyRow (mmOf cj alpha beta A B n ldb ldc) ((i : Int) * ldc) (j - A.base) C) C = _
    rw [← e1]
    refine Csr.forC_row' hA hi (G := fun c v C => forC 0 (n : Int) (fun k C => do
      let b ← rd B ((c + A.base) * ldb - A.base * ldb + k)
      addAt C ((i : Int) * ldc + k) (cj v * b * alpha)) C) ?_ C
    intro j c v s h1 h2 _
    rw [show A.base + j - A.base = j by ring]
    unfold mmAxpyRow
    simp only [mmOf]
    rw [h1, h2]
    rfl
  · unfold mmEltRow mmPairs
    rw [List.foldl_map]
    rfl

end rows

end Verif
