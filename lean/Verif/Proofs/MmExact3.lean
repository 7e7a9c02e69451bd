import Verif.Proofs.MmExact2
import Verif.Proofs.SchedMm3

/-!
The elements of a sparse times dense product, in an arithmetic without laws: the row-major vector kernel, and all
kernels together.
-/

namespace Verif
open Model

variable {R : Type}

section rowkt
variable [Zero R] [Add R] [Mul R] {cj : R → R} {alpha beta : R} {A : Csr R} {B : List R} {n ldb ldc : Nat}

theorem zip2_mapX {K : Nat} (a : R) (b F : Nat → R) :
    List.zipWith (fun b c => a * b + c) ((List.range K).map b) ((List.range K).map F)
      = (List.range K).map fun l => a * b l + F l := by
  refine List.ext_getElem (by simp) fun l h1 h2 => ?_
  simp

theorem zipFoldX (K : Nat) (F : Nat → R) (L : List (R × (Nat → R))) :
    (L.map fun ab => (ab.1, (List.range K).map ab.2)).foldl
      (fun c ab => List.zipWith (fun b c => ab.1 * b + c) ab.2 c) ((List.range K).map F)
      = (List.range K).map (fun l => L.foldl (fun x ab => ab.1 * ab.2 l + x) (F l)) := by
  induction L generalizing F with
  | nil => simp
  | cons a L ih =>
    simp only [List.map_cons, List.foldl_cons]
    rw [zip2_mapX, ih]

theorem mapM_map_someX {α β : Type} {f : α → Option β} {g : α → β} (L : List α)
    (h : ∀ x ∈ L, f x = some (g x)) : L.mapM f = some (L.map g) := by
  induction L with
  | nil => rfl
  | cons a L ih =>
    rw [List.mapM_cons, h a (by simp), ih (fun x hx => h x (by simp [hx]))]
    rfl

/-- what a group of entries does to an element -/
def grpF (st : Nat × R → Nat → R → R) (L : List (Nat × R)) (j : Nat) (x : R) : R := L.foldl (fun x e => st e j x) x

theorem mmRowVec_exact {K : Nat} (hK : 0 < K) {a : MmIn R} (ha : a.alpha = alpha ∧ a.B = B ∧ a.ldb = (ldb : Int))
    {s len blk j : Nat} (es : List (Nat × R))
    (hB : ∀ e ∈ es, ∀ j, j < n → e.1 * ldb + j < B.length) (hj : j + K ≤ n) (hlen : s + n ≤ len)
    {C : List R} {f : Nat → R} (hC : Rep C len f) :
    ∃ C', mmRowVec K a s blk (es.map fun e => ((e.1 : Int) + a.base, e.2)) j C = some C' ∧
      Rep C' len (fun p => if s + j ≤ p ∧ p < s + j + K then
        grpF (stepV alpha B ldb) (es.take blk) (p - s) (f p) else f p) := by
  obtain ⟨h1, h2, h3⟩ := ha
  unfold mmRowVec
  rw [vload_rep hC (by omega) (by omega)]
  simp only [Option.bind_eq_bind, Option.bind_some]
  have hm : (es.map fun e => ((e.1 : Int) + a.base, e.2)).mapM (fun e =>
      (vload a.B (j + (e.1 * a.ldb - a.base * a.ldb)) K).bind fun b => some (a.alpha * e.2, b))
      = some ((es.map fun e => (alpha * e.2, fun l => B.getD (e.1 * ldb + j + l) 0)).map
        fun ab => (ab.1, (List.range K).map ab.2)) := by
    rw [List.mapM_map, mapM_map_someX (g := fun e => (alpha * e.2, (List.range K).map
      fun l => B.getD (e.1 * ldb + j + l) 0)), List.map_map]
    · rfl
    · intro e he
      have hb := hB e he (j + K - 1) (by omega)
      have eo : (j : Int) + (((e.1 : Int) + a.base) * a.ldb - a.base * a.ldb)
          = ((e.1 * ldb + j : Nat) : Int) := by rw [h3]; push_cast; ring
      simp only [Function.comp]
      rw [eo, h2, vload_rep (Rep.of_list B 0) (by omega) (by omega), h1]
      simp only [Option.bind_some, Int.toNat_natCast]
  rw [hm]
  simp only [Option.bind_some]
  rw [← List.map_take, ← List.map_take, zipFoldX]
  obtain ⟨C', e, r⟩ := vstore_rep hC (p := (s : Int) + j) (K := K) (fun l =>
    (List.map (fun e => (alpha * e.2, fun l => B.getD (e.1 * ldb + j + l) 0)) (es.take blk)).foldl
        (fun x ab => ab.1 * ab.2 l + x) (f (((s : Int) + j).toNat + l))) (by omega) (by omega)
  refine ⟨C', e, r.congr (fun p _ => ?_)⟩
  by_cases hp : s + j ≤ p ∧ p < s + j + K
  · rw [if_pos hp, if_pos (by omega), show ((s : Int) + j).toNat = s + j by omega,
      show s + j + (p - (s + j)) = p by omega, List.foldl_map]
    unfold grpF stepV
    simp only
    refine congrArg (fun g => List.foldl g (f p) (es.take blk)) (funext fun x => funext fun e => ?_)
    rw [show e.1 * ldb + j + (p - (s + j)) = e.1 * ldb + (p - s) by omega]
  · rw [if_neg hp, if_neg (by omega)]

theorem mmRowRem_exact {a : MmIn R} (ha : a.alpha = alpha ∧ a.B = B ∧ a.ldb = (ldb : Int))
    {s len blk j : Nat} (es : List (Nat × R))
    (hB : ∀ e ∈ es, ∀ j, j < n → e.1 * ldb + j < B.length) (hj : j < n) (hlen : s + n ≤ len)
    {C : List R} {f : Nat → R} (hC : Rep C len f) :
    ∃ C', mmRowRem a s blk (es.map fun e => ((e.1 : Int) + a.base, e.2)) j C = some C' ∧
      Rep C' len (fun p => if p = s + j then grpF (stepS alpha B ldb) (es.take blk) (p - s) (f p) else f p) := by
  obtain ⟨h1, h2, h3⟩ := ha
  unfold mmRowRem
  rw [← List.map_take, foldlM_map']
  have key : ∀ (L : List (Nat × R)) (C : List R) (f : Nat → R), (∀ e ∈ L, e ∈ es) → Rep C len f →
      ∃ C', L.foldlM (fun C e => (do
        let b ← rd a.B ((((e.1 : Int) + a.base) * a.ldb - a.base * a.ldb) + j)
        addAt C ((s : Int) + j) (e.2 * b * a.alpha))) C = some C' ∧
        Rep C' len (fun p => if p = s + j then grpF (stepS alpha B ldb) L (p - s) (f p) else f p) := by
    intro L
    induction L with
    | nil => intro C f _ hC; exact ⟨C, rfl, hC.congr fun p _ => by simp [grpF]⟩
    | cons e L ih =>
      intro C f hL hC
      have hb := hB e (hL e (by simp)) j hj
      have eo : (((e.1 : Int) + a.base) * a.ldb - a.base * a.ldb) + (j : Int)
          = ((e.1 * ldb + j : Nat) : Int) := by rw [h3]; push_cast; ring
      obtain ⟨C1, e1, r1⟩ := upd_rep hC (i := s + j) (by omega) (k := (s : Int) + j) (by push_cast; rfl)
        (fun x => x + e.2 * B.getD (e.1 * ldb + j) 0 * alpha)
      obtain ⟨C2, e2, r2⟩ := ih C1 _ (fun e' he' => hL e' (by simp [he'])) r1
      refine ⟨C2, ?_, r2.congr fun p _ => ?_⟩
      · rw [List.foldlM_cons, eo, h2, (Rep.of_list B 0).rd_nat hb, h1]
        have e1 : addAt C ((s : Int) + j) (e.2 * B.getD (e.1 * ldb + j) 0 * alpha) = some C1 := e1
        simp only [Option.bind_eq_bind, Option.bind_some]
        rw [e1]
        rw [h2, h1] at e2
        exact e2
      · by_cases hp : p = s + j
        · simp only [if_pos hp]
          unfold grpF
          rw [List.foldl_cons]
          unfold stepS
          rw [show p - s = j by omega]
        · simp only [if_neg hp]
  exact key (es.take blk) C f (fun e he => List.mem_of_mem_take he) hC

theorem mmBlkEnts_eqX {lo : Int} {N k : Nat} (hk : k < N) :
    mmBlkEnts (lo + N) (lo + k) = min 4 (N - k) := by
  unfold mmBlkEnts
  split
  · omega
  · split
    · omega
    · split <;> omega

theorem mmRowBlk_maps {K : Nat} (hK : 0 < K) {a : MmIn R}
    (ha : a.alpha = alpha ∧ a.B = B ∧ a.ldb = (ldb : Int)) (han : a.n = (n : Int))
    {s len : Nat} {lo : Int} {N k : Nat} (hk : k < N) (E : Nat → Nat × R)
    (hE : ∀ t, t < N → mmEnt a (lo + t) = some ((((E t).1 : Nat) : Int) + a.base, (E t).2))
    (hB : ∀ t, t < N → ∀ j, j < n → (E t).1 * ldb + j < B.length) (hlen : s + n ≤ len) :
    Maps len s n (mmRowBlk K a s (lo + N) (lo + k))
      (grpF (stepK K n alpha B ldb) ((List.range (min 4 (N - k))).map fun t => E (k + t))) := by
  intro C f hC
  unfold mmRowBlk
  rw [mmBlkEnts_eqX hk]
  generalize hb : min 4 (N - k) = blk
  have hb4 : blk ≤ 4 := by omega
  simp only [Option.bind_eq_bind]
  have hm : (List.range 4).mapM (fun (q : Nat) => mmEnt a (if q < blk then lo + k + q else lo + k))
      = some (((List.range 4).map fun q => E (if q < blk then k + q else k)).map
        fun e => ((e.1 : Int) + a.base, e.2)) := by
    rw [List.map_map]
    apply mapM_range_some
    intro q hq
    by_cases hqb : q < blk
    · simp only [if_pos hqb, Function.comp]
      rw [show lo + (k : Int) + q = lo + ((k + q : Nat) : Int) by push_cast; ring]
      exact hE _ (by omega)
    · simp only [if_neg hqb, Function.comp]
      exact hE _ hk
  rw [hm]
  simp only [Option.bind_some]
  generalize hes : ((List.range 4).map fun q => E (if q < blk then k + q else k)) = es
  have hesB : ∀ e ∈ es, ∀ j, j < n → e.1 * ldb + j < B.length := by
    intro e he j hj
    rw [← hes, List.mem_map] at he
    obtain ⟨q, _, rfl⟩ := he
    exact hB _ (by split <;> omega) j hj
  have hgrp : es.take blk = (List.range blk).map fun t => E (k + t) := by
    rw [← hes, ← List.map_take, List.take_range, show min blk 4 = blk by omega]
    refine List.map_congr_left fun q hq => ?_
    rw [if_pos (List.mem_range.1 hq)]
  have hdiv := Nat.div_add_mod n K
  have e1 : a.n.tdiv (K : Int) = ((n / K : Nat) : Int) := by
    rw [han, Int.tdiv_eq_ediv_of_nonneg (by omega)]; rfl
  have e2 : a.n - (a.n - (K : Int) * a.n.tdiv K) = ((K * (n / K) : Nat) : Int) := by
    rw [e1]; push_cast; ring
  have hgK : ∀ p x, p < K * (n / K) → grpF (stepK K n alpha B ldb) (es.take blk) p x
      = grpF (stepV alpha B ldb) (es.take blk) p x := by
    intro p x hp
    unfold grpF stepK
    simp only [if_pos hp]
  have hgS : ∀ p x, ¬ p < K * (n / K) → grpF (stepK K n alpha B ldb) (es.take blk) p x
      = grpF (stepS alpha B ldb) (es.take blk) p x := by
    intro p x hp
    unfold grpF stepK
    simp only [if_neg hp]
  rw [e2, han]
  obtain ⟨C1, g1, r1⟩ := forS_inv (lo := 0) (hi := ((K * (n / K) : Nat) : Int)) (K := K) (k := n / K) hK
    (by push_cast; ring) (f := mmRowVec K a s blk (es.map fun e => ((e.1 : Int) + a.base, e.2))) (s := C)
    (P := fun t C => Rep C len (fun p => if s ≤ p ∧ p < s + K * t then
      grpF (stepK K n alpha B ldb) (es.take blk) (p - s) (f p) else f p))
    (hC.congr (fun p _ => by rw [if_neg (by omega)])) (by
      intro t C ht hC
      have hle : K * (t + 1) ≤ K * (n / K) := Nat.mul_le_mul_left K ht
      rw [Nat.mul_succ] at hle
      obtain ⟨C', g, r⟩ := mmRowVec_exact (K := K) (n := n) (blk := blk) (j := K * t) hK ⟨ha.1, ha.2.1, ha.2.2⟩ es hesB
        (by omega) hlen hC
      refine ⟨C', by rw [← g]; push_cast; simp, r.congr (fun p _ => ?_)⟩
      rw [Nat.mul_succ]
      by_cases hp : s + K * t ≤ p ∧ p < s + K * t + K
      · rw [if_pos hp, if_neg (by omega), if_pos (by omega), hgK _ _ (by omega)]
      · rw [if_neg hp]
        by_cases hp' : s ≤ p ∧ p < s + K * t
        · rw [if_pos hp', if_pos (by omega)]
        · rw [if_neg hp', if_neg (by omega)])
  rw [g1]
  simp only [Option.bind_some]
  obtain ⟨C2, g2, j, hj, hjK, r2⟩ := forC_inv (lo := ((K * (n / K) : Nat) : Int)) (hi := (n : Int)) (s := C1)
    (f := mmRowRem a s blk (es.map fun e => ((e.1 : Int) + a.base, e.2)))
    (P := fun j C => ∃ t : Nat, j = (t : Int) ∧ K * (n / K) ≤ t ∧ Rep C len (fun p => if s ≤ p ∧ p < s + t then
      grpF (stepK K n alpha B ldb) (es.take blk) (p - s) (f p) else f p)) (by omega) ⟨_, rfl, le_rfl, r1⟩ (by
      rintro j C h1 h2 ⟨t, rfl, htK, hC⟩
      obtain ⟨C', g, r⟩ := mmRowRem_exact (n := n) (blk := blk) (j := t) ⟨ha.1, ha.2.1, ha.2.2⟩ es hesB
        (by omega) hlen hC
      refine ⟨C', g, t + 1, by push_cast; rfl, by omega, r.congr (fun p _ => ?_)⟩
      by_cases hp : p = s + t
      · rw [if_pos hp, if_neg (by omega), if_pos (by omega), hgS _ _ (by omega)]
      · rw [if_neg hp]
        by_cases hp' : s ≤ p ∧ p < s + t
        · rw [if_pos hp', if_pos (by omega)]
        · rw [if_neg hp', if_neg (by omega)])
  have : j = n := by omega
  subst this
  rw [hgrp] at r2
  exact ⟨C2, g2, r2⟩

theorem mmRowKtOne_maps {K : Nat} (hK : 0 < K) (hA : A.WF) {len i : Nat} (hi : i < A.m)
    (hB : MmReads false A B n ldb) (hlen : i * ldc + n ≤ len) :
    Maps len (i * ldc) n (mmRowKtOne K (mmOf cj alpha beta A B n ldb ldc) i)
      (fun j x => mmEltRowKt K n alpha beta x j (mmPairs cj false A B ldb i j)) := by
  have hp1 := hA.rd_ptr (i := i) (by omega)
  have hp2 := hA.rd_ptr (i := i + 1) (by omega)
  rw [show ((i + 1 : Nat) : Int) = (i : Int) + 1 by omega] at hp2
  have hrl := Csr.row_length hA hi
  generalize hN : (A.row i).length = N at hrl
  let E : Nat → Nat × R := fun t => if h : t < (A.row i).length then
    ((A.row i)[t].1.toNat, cj (A.row i)[t].2) else (0, 0)
  have hE : ∀ t (ht : t < (A.row i).length), E t = ((A.row i)[t].1.toNat, cj (A.row i)[t].2) :=
    fun t ht => dif_pos ht
  have hends : A.p (i + 1) = A.p i + N := by
    have := hA.ptr_mono i hi
    omega
  have hEnt : ∀ t, t < N → mmEnt (mmOf cj alpha beta A B n ldb ldc) (A.p i + t)
      = some ((((E t).1 : Nat) : Int) + A.base, (E t).2) := by
    intro t ht
    obtain ⟨c, v, e1, e2, e3⟩ := Csr.row_getElem? hA hi (t := t) (by omega)
    have ht' : t < (A.row i).length := by omega
    have e4 : (A.row i)[t] = (c - A.base, v) := by
      rw [List.getElem?_eq_getElem ht'] at e3
      simpa using e3
    have hr := Csr.row_range hA (List.getElem_mem ht')
    rw [hE t ht', e4]
    rw [e4] at hr
    simp only at hr ⊢
    unfold mmEnt
    simp only [mmOf]
    rw [show A.p i + (t : Int) - A.base = A.p i - A.base + t by ring, e1, e2]
    simp only [Option.bind_eq_bind, Option.bind_some]
    rw [Int.toNat_of_nonneg hr.1]
    congr 2
    ring
  have hEB : ∀ t, t < N → ∀ j, j < n → (E t).1 * ldb + j < B.length := by
    intro t ht j hj
    have ht' : t < (A.row i).length := by omega
    have hr := Csr.row_range hA (List.getElem_mem ht')
    rw [hE t ht']
    have := hB (A.row i)[t].1.toNat j (by omega) hj
    simpa [denseOff] using this
  have hEall : (List.range N).map E = (A.row i).map fun e => (e.1.toNat, cj e.2) := by
    refine List.ext_getElem (by simp [hN]) fun t h1 h2 => ?_
    rw [List.getElem_map, List.getElem_range, List.getElem_map]
    exact hE t (by simpa using h2)
  have hadds : Maps len (i * ldc) n (fun C => forS (A.p i) (A.p (i + 1)) 4
      (mmRowBlk K (mmOf cj alpha beta A B n ldb ldc) ((i * ldc : Nat) : Int) (A.p (i + 1))) C)
      (grpF (stepK K n alpha B ldb) ((List.range N).map E)) := by
    intro C f hC
    rw [hends]
    unfold forS
    have en : (A.p i + (N : Int) - A.p i + 4 - 1) / 4 = (((N + 3) / 4 : Nat) : Int) := by omega
    simp only [en]
    obtain ⟨C', e, r⟩ := forC_inv_nat (n := (N + 3) / 4) (s := C)
      (f := fun k s => mmRowBlk K (mmOf cj alpha beta A B n ldb ldc) ((i * ldc : Nat) : Int)
        (A.p i + (N : Int)) (A.p i + 4 * k) s)
      (P := fun k C => Rep C len (fun p => if i * ldc ≤ p ∧ p < i * ldc + n then
        grpF (stepK K n alpha B ldb) ((List.range (min (4 * k) N)).map E) (p - i * ldc) (f p) else f p))
      (hC.congr (fun p _ => by simp [grpF])) (by
        intro k C hk hC
        obtain ⟨C', e, r⟩ := mmRowBlk_maps (n := n) (s := i * ldc) (len := len) hK (a := mmOf cj alpha beta A B n ldb ldc)
          ⟨rfl, rfl, rfl⟩ rfl (lo := A.p i) (N := N) (k := 4 * k) (by omega) E hEnt hEB hlen C _ hC
        refine ⟨C', by rw [← e]; push_cast; rfl, r.congr (fun p _ => ?_)⟩
        by_cases hp : i * ldc ≤ p ∧ p < i * ldc + n
        · simp only [if_pos hp]
          rw [show min (4 * k) N = 4 * k by omega,
            show min (4 * (k + 1)) N = 4 * k + min 4 (N - 4 * k) by omega, List.range_add, List.map_append,
            List.map_map]
          unfold grpF
          rw [List.foldl_append]
          rfl
        · simp only [if_neg hp])
    refine ⟨C', e, r.congr (fun p _ => ?_)⟩
    rw [show min (4 * ((N + 3) / 4)) N = N by omega]
  refine ((mmScaleRow_maps (cj := cj) (alpha := alpha) (beta := beta) (A := A) (B := B) (ldb := ldb) hlen).seq hadds).congr
    (fun C => ?_) (fun j x hj => ?_)
  · unfold mmRowKtOne
    simp only [mmOf]
    rw [hp1, hp2]
    push_cast
    rfl
  · rw [hEall]
    unfold mmEltRowKt mmEltRowVec mmEltRow mmPairs grpF stepK
    by_cases h : j < K * (n / K)
    · simp only [if_pos h]
      rw [List.foldl_map, List.foldl_map]
      rfl
    · simp only [if_neg h]
      rw [List.foldl_map, List.foldl_map]
      rfl

end rowkt

section teams
variable [Zero R] [Add R] [Mul R] {cj : R → R} {alpha beta : R} {A : Csr R} {B : List R} {n ldb ldc : Nat}
  {D : Nat → Nat → R} {g : Nat → Nat → R → R}

theorem mmColRef_exact {w : Nat} {tm : MmTeam} (hT : 0 < tm.T) (hov : (n : Int) * tm.T ≤ intMax w)
    (hord : tm.ord.Perm (List.range tm.T)) (hA : A.WF) (hld : A.m ≤ ldc)
    (hD : ∀ i j, i < A.m → j < n → mmDotSeq (mmOf cj alpha beta A B n ldb ldc) ((j : Int) * ldb - A.base) (A.p i)
      (A.p (i + 1)) 0 = some (D j i)) (hg : ∀ j i v, beta * v + alpha * D j i = g j i v) {C : List R}
    (hC : ∀ i j, i < A.m → j < n → denseOff true ldc i j < C.length) :
    ∃ C', mmColRef w tm (mmOf cj alpha beta A B n ldb ldc) C = some C' ∧
      Rep C' C.length (doneF ldc (fun a b => a < n ∧ b < A.m)
        (g) (fun p => C.getD p 0)) := by
  have h := team_inv (w := w) (T := tm.T) (m := n) (order := tm.ord) (loc := ())
    (body := fun j s => do
      let C ← forC 0 (A.m : Int) (mmColCell (mmOf cj alpha beta A B n ldb ldc) j) s.2
      some ((), C)) (s := C) hT hov hord
    (P := fun S s => Rep s C.length (doneF ldc (fun a b => S a ∧ b < A.m)
        (g) (fun p => C.getD p 0)))
    (Q := fun _ _ => True)
    ((Rep.of_list C 0).congr (fun k _ => by unfold doneF; rw [if_neg (by simp)]))
    (fun _ => trivial) (by
      intro S j s _ hj hSj hs _
      obtain ⟨C1, e1, r1⟩ := forC_inv_nat (n := A.m) (s := s)
        (f := mmColCell (mmOf cj alpha beta A B n ldb ldc) (j : Int))
        (P := fun i s => Rep s C.length (doneF ldc (fun a b => (S a ∧ b < A.m) ∨ (a = j ∧ b < i))
          (g) (fun p => C.getD p 0)))
        (hs.congr (fun k _ => doneF_congr (fun a b => by simp) k)) (by
          intro i s hi hs
          have hp1 := hA.rd_ptr (i := i) (by omega)
          have hp2 := hA.rd_ptr (i := i + 1) (by omega)
          rw [show ((i + 1 : Nat) : Int) = (i : Int) + 1 by omega] at hp2
          have hd := hD i j hi hj
          have hlt := hC i j hi hj
          have eo : denseOff true ldc i j = j * ldc + i := by
            simp only [denseOff, if_true]; ring
          rw [eo] at hlt
          obtain ⟨g1, g2⟩ := doneF_step (a := j) (b := i) (p := (i : Int) + j * ldc) (by omega) hlt hs
            (by rintro (⟨h, _⟩ | ⟨_, h⟩); exact hSj h; omega) (by push_cast; ring)
          obtain ⟨C', g3, g4⟩ := g2 (beta * C.getD (j * ldc + i) 0
            + alpha * D j i) (hg _ _ _)
          refine ⟨C', ?_, g4.congr (fun k _ => doneF_congr (fun a b => ?_) k)⟩
          · unfold mmColCell
            simp only [mmOf] at hd ⊢
            rw [hp1, hp2]
            simp only [Option.bind_eq_bind, Option.bind_some]
            rw [hd]
            simp only [Option.bind_some]
            rw [g1]
            simp only [Option.bind_some]
            exact g3
          · constructor
            · rintro ((h | h) | h)
              · exact Or.inl h
              · exact Or.inr ⟨h.1, by omega⟩
              · exact Or.inr ⟨h.1, by omega⟩
            · rintro (h | h)
              · exact Or.inl (Or.inl h)
              · by_cases hb : b = i
                · exact Or.inr ⟨h.1, hb⟩
                · exact Or.inl (Or.inr ⟨h.1, by omega⟩))
      refine ⟨(), C1, ?_, r1.congr (fun k _ => doneF_congr (fun a b => ?_) k), trivial⟩
      · simp only [Option.bind_eq_bind]
        rw [e1]
        rfl
      · constructor
        · rintro (h | h)
          · exact ⟨Or.inl h.1, h.2⟩
          · exact ⟨Or.inr h.1, h.2⟩
        · rintro ⟨h | h, h2⟩
          · exact Or.inl ⟨h, h2⟩
          · exact Or.inr ⟨h, h2⟩)
  exact h

/-- a team of row routines -/
theorem rows_team_exact {w : Nat} {tm : MmTeam} (hT : 0 < tm.T) (hov : (A.m : Int) * tm.T ≤ intMax w)
    (hord : tm.ord.Perm (List.range tm.T)) (hld : n ≤ ldc) (hn : 0 < n) {C : List R}
    (body : Int → List R → Option (List R))
    (hbody : ∀ i : Nat, i < A.m → Maps C.length (i * ldc) n (body i) (g i)) :
    ∃ C', inTeam w tm.ord tm.T A.m () (fun i s => do
        let C ← body i s.2
        some ((), C)) C = some C' ∧
      Rep C' C.length (doneF ldc (fun a b => a < A.m ∧ b < n)
        g (fun p => C.getD p 0)) := by
  refine team_inv (w := w) (T := tm.T) (m := A.m) (order := tm.ord) (loc := ())
    (s := C) hT hov hord
    (P := fun S s => Rep s C.length (doneF ldc (fun a b => S a ∧ b < n)
        g (fun p => C.getD p 0)))
    (Q := fun _ _ => True)
    ((Rep.of_list C 0).congr (fun k _ => by unfold doneF; rw [if_neg (by simp)]))
    (fun _ => trivial) ?_
  intro S i s _ hi hSi hs _
  obtain ⟨C', e, r⟩ := hbody i hi s _ hs
  refine ⟨(), C', by simp [e], r.congr (fun p hp => ?_), trivial⟩
  have hdm := Nat.div_add_mod p ldc
  have hwin : (i * ldc ≤ p ∧ p < i * ldc + n) ↔ (p / ldc = i ∧ p % ldc < n) := by
    constructor
    · rintro ⟨h1, h2⟩
      obtain ⟨b, rfl⟩ : ∃ b, p = i * ldc + b := ⟨p - i * ldc, by omega⟩
      have := major_minor (ld := ldc) (a := i) (b := b) (by omega)
      rw [this.1, this.2]
      omega
    · rintro ⟨rfl, h⟩
      rw [Nat.mul_comm] at hdm
      omega
  unfold doneF
  by_cases hw : i * ldc ≤ p ∧ p < i * ldc + n
  · have h2 := hwin.1 hw
    rw [if_pos hw, if_neg (by rintro ⟨h, _⟩; rw [h2.1] at h; exact hSi h),
      if_pos ⟨Or.inr h2.1, h2.2⟩, h2.1]
    congr 1
    rw [h2.1, Nat.mul_comm] at hdm
    omega
  · rw [if_neg hw]
    have : ¬ (p / ldc = i ∧ p % ldc < n) := fun h => hw (hwin.2 h)
    by_cases hS : S (p / ldc) ∧ p % ldc < n
    · rw [if_pos hS, if_pos ⟨Or.inl hS.1, hS.2⟩]
    · rw [if_neg hS, if_neg (by tauto)]

end teams

end Verif
