/-
The transposed product: exact values, and all schedules of its parallel regions.
-/
import Verif.Model.SchedMvt
import Verif.Spec.MvtExact
import Verif.Proofs.CsrmvT
import Verif.Proofs.Oom

namespace Verif
open Model

section bumps
variable {R : Type} [Zero R] [Add R]

/-- `y[e.1] += e.2` -/
def bumpX (y : List R) (e : Int × R) : List R := y.set e.1.toNat (y.getD e.1.toNat 0 + e.2)

theorem bumps_length (L : List (Int × R)) (y : List R) : (L.foldl bumpX y).length = y.length := by
  induction L generalizing y with
  | nil => rfl
  | cons e L ih => rw [List.foldl_cons, ih]; simp [bumpX]

/-- `f` adds the values of `L` to the cells they name, one after another -/
structure Bumps (len : Nat) (f : List R → Option (List R)) (L : List (Int × R)) : Prop where
  range : ∀ e ∈ L, 0 ≤ e.1 ∧ e.1 < (len : Int)
  run : ∀ y, len ≤ y.length → f y = some (L.foldl bumpX y)

theorem Bumps.cell {L : List (Int × R)} (h : ∀ e ∈ L, 0 ≤ e.1) (y : List R) (c : Nat) :
    (L.foldl bumpX y)[c]? = y[c]?.map fun r => mvtCol r L c := by
  induction L generalizing y with
  | nil => simp [mvtCol]
  | cons e L ih =>
    rw [List.foldl_cons, ih (fun e he => h e (.tail _ he))]
    have h0 := h e (.head _)
    by_cases hc : e.1 = (c : Int)
    · have ht : e.1.toNat = c := by omega
      unfold bumpX mvtCol
      rw [ht, List.filter_cons_of_pos (by simpa using hc), List.getElem?_set_self', List.getD_eq_getElem?_getD]
      cases hy : y[c]? with
      | none => simp
      | some v => simp
    · have ht : e.1.toNat ≠ c := by omega
      unfold bumpX mvtCol
      rw [List.filter_cons_of_neg (by simpa using hc), List.getElem?_set_ne ht]

theorem Bumps.congr {len : Nat} {f g : List R → Option (List R)} {L M : List (Int × R)} (h : Bumps len f L)
    (e : ∀ y, g y = f y) (hl : M = L) : Bumps len g M := by
  subst hl
  exact ⟨h.range, fun y hy => by rw [e, h.run y hy]⟩

theorem Bumps.nil (len : Nat) : Bumps len (some : List R → _) [] := ⟨by simp, fun _ _ => rfl⟩

theorem Bumps.comp {len : Nat} {f g : List R → Option (List R)} {L M : List (Int × R)} (hf : Bumps len f L)
    (hg : Bumps len g M) : Bumps len (fun y => (f y).bind g) (L ++ M) := by
  refine ⟨fun e he => ?_, fun y hy => ?_⟩
  · rcases List.mem_append.1 he with h | h
    · exact hf.range e h
    · exact hg.range e h
  · rw [hf.run y hy, List.foldl_append]
    exact hg.run _ (by rw [bumps_length]; exact hy)

theorem Bumps.addAt {len : Nat} {i : Int} (h0 : 0 ≤ i) (h1 : i < len) (v : R) :
    Bumps len (fun y => addAt y i v) [(i, v)] := by
  refine ⟨by simpa using ⟨h0, h1⟩, fun y hy => ?_⟩
  obtain ⟨k, rfl⟩ := Int.eq_ofNat_of_zero_le h0
  have hk : k < y.length := by omega
  show (rd y (k : Int)).bind _ = _
  rw [rd_ofNat, List.getElem?_eq_getElem hk]
  show wr y (k : Int) _ = _
  rw [wr_some_iff.2 ⟨by omega, by omega, rfl⟩]
  simp [bumpX, List.getD_eq_getElem?_getD, List.getElem?_eq_getElem hk]

theorem Bumps.forC {len n : Nat} {lo hi : Int} (hhi : hi = lo + n) {body : Int → List R → Option (List R)}
    {L : Nat → List (Int × R)} (h : ∀ i, i < n → Bumps len (body (lo + (i : Nat))) (L i)) :
    Bumps len (forC lo hi body) ((List.range n).flatMap L) := by
  subst hhi
  induction n with
  | zero =>
    refine (Bumps.nil len).congr (fun y => ?_) rfl
    rw [forC_ge (by simp)]
  | succ n ih =>
    have := (ih fun i hi => h i (by omega)).comp (h n (by omega))
    refine this.congr (fun y => ?_) ?_
    · rw [show lo + ((n + 1 : Nat) : Int) = lo + n + 1 by push_cast; ring]
      rw [forC_split (mid := lo + n) (by omega) (by omega)]
      congr 1
      funext z
      rw [forC_lt (by omega)]
      cases body (lo + (n : Int)) z with
      | none => rfl
      | some w => exact forC_ge (by omega) _ _
    · rw [List.range_succ, List.flatMap_append]; simp

theorem Bumps.forS {len n K : Nat} (hK : 0 < K) {lo hi : Int} (hhi : hi = lo + (K * n : Nat))
    {body : Int → List R → Option (List R)} {L : Nat → List (Int × R)}
    (h : ∀ i, i < n → Bumps len (body (lo + (K * i : Nat))) (L i)) :
    Bumps len (forS lo hi K body) ((List.range n).flatMap L) := by
  refine ⟨fun e he => ?_, fun y hy => ?_⟩
  · obtain ⟨i, hi, hm⟩ := List.mem_flatMap.1 he
    exact (h i (List.mem_range.1 hi)).range e hm
  · obtain ⟨z, e, hz⟩ := forS_inv hK hhi (f := body) (s := y)
      (fun t z => z = ((List.range t).flatMap L).foldl bumpX y) rfl (by
        rintro t z ht rfl
        refine ⟨_, (h t ht).run _ (by rw [bumps_length]; exact hy), ?_⟩
        rw [List.range_succ, List.flatMap_append, List.foldl_append]
        simp)
    rw [e, hz]

/-- the entries of a segment, one by one -/
theorem Bumps.seg {ind : List Int} {val : List R} {base lo hi : Int} {S : List (Int × R)}
    (h : Seg ind val base lo hi S) {len : Nat} (hr : ∀ e ∈ S, 0 ≤ e.1 ∧ e.1 < (len : Int)) (w : R → R) :
    Bumps len (Verif.forC lo hi fun j y => (rd ind (j - base)).bind fun c => (rd val (j - base)).bind fun v =>
      Model.addAt y (c - base) (w v)) (S.map fun e => (e.1, w e.2)) := by
  refine ⟨fun e he => ?_, fun y hy => ?_⟩
  · obtain ⟨e, hm, rfl⟩ := List.mem_map.1 he
    exact hr e hm
  · rw [h.forC (fun c v y => Model.addAt y (c - base) (w v)) y]
    clear h
    induction S generalizing y with
    | nil => rfl
    | cons e S ih =>
      have h1 := hr e (.head _)
      have := (Bumps.addAt h1.1 h1.2 (w e.2)).run y hy
      rw [List.foldlM_cons, Int.add_sub_cancel]
      show (Model.addAt y e.1 (w e.2)).bind _ = _
      have hh : Model.addAt y e.1 (w e.2) = some (bumpX y (e.1, w e.2)) := this
      rw [hh]
      exact ih (fun e he => hr e (.tail _ he)) (bumpX y (e.1, w e.2)) (by simpa [bumpX] using hy)

end bumps

section rows
variable {R : Type} [Zero R] [Add R] [Mul R]

theorem groups_flat {β : Type} (g : Int × R → β) (K : Nat) (S : List (Int × R)) : ∀ q,
    ((List.range q).flatMap fun i => ((S.drop (K * i)).take K).map g) = (S.take (K * q)).map g
  | 0 => by simp
  | q + 1 => by
    rw [List.range_succ, List.flatMap_append, groups_flat g K S q, Nat.mul_succ, List.take_add, List.map_append]
    simp

/-- one row of the vector kernel -/
theorem csrmvtRow_bumps {K : Nat} (hK : 0 < K) {ind : List Int} {val : List R} {base lo hi : Int}
    {S : List (Int × R)} (h : Seg ind val base lo hi S) {len : Nat}
    (hr : ∀ e ∈ S, 0 ≤ e.1 ∧ e.1 < (len : Int)) (alpha xi : R) :
    Bumps len (csrmvtRow K base alpha val ind lo hi xi) (mvtRow K alpha xi S) := by
  have hlen : hi - lo = (S.length : Int) := by have := h.1; omega
  have hrem : (hi - lo).tmod K = ((S.length % K : Nat) : Int) := by
    rw [hlen, Int.tmod_eq_emod_of_nonneg (by omega)]; push_cast; rfl
  have hdm : (S.length : Int) = ((K * (S.length / K) : Nat) : Int) + ((S.length % K : Nat) : Int) := by
    exact_mod_cast (Nat.div_add_mod S.length K).symm
  have hdm' := Nat.div_add_mod S.length K
  have hend : hi - ((S.length % K : Nat) : Int) = lo + ((K * (S.length / K) : Nat) : Int) := by omega
  have h1 : Bumps len (Verif.forS lo (lo + ((K * (S.length / K) : Nat) : Int)) K (fun j y => do
      let vy ← (List.range K).mapM fun (l : Nat) => do
        let v ← rd val (j - base + (l : Int))
        some (v * (alpha * xi))
      Verif.forC 0 K (fun k y => do
        let c ← rd ind (j + k - base)
        let v ← rd vy k
        Model.addAt y (c - base) v) y))
      ((List.range (S.length / K)).flatMap fun i =>
        ((S.drop (K * i)).take K).map fun e => (e.1, e.2 * (alpha * xi))) := by
    refine Bumps.forS hK rfl ?_
    intro i hiK
    have hb : K * i + K ≤ K * (S.length / K) := by
      calc K * i + K = K * (i + 1) := by ring
        _ ≤ _ := Nat.mul_le_mul_left _ hiK
    have hvy : ((List.range K).mapM fun (l : Nat) => do
        let v ← rd val (lo + ((K * i : Nat) : Int) - base + (l : Int))
        some (v * (alpha * xi)))
        = some ((List.range K).map fun l => (S.getD (K * i + l) (0, 0)).2 * (alpha * xi)) := by
      apply mapM_range_some
      intro l hl
      obtain ⟨_, e2⟩ := h.2 (K * i + l) (by omega)
      rw [show lo + ((K * i : Nat) : Int) - base + (l : Int) = lo - base + ((K * i + l : Nat) : Int) by
        push_cast; ring, e2]
      simp [List.getD_eq_getElem?_getD, List.getElem?_eq_getElem (show K * i + l < S.length by omega)]
    refine (Bumps.forC (lo := 0) (hi := (K : Int)) (n := K) (by omega) (body := fun k y => do
        let c ← rd ind (lo + ((K * i : Nat) : Int) + k - base)
        let v ← rd ((List.range K).map fun l => (S.getD (K * i + l) (0, 0)).2 * (alpha * xi)) k
        Model.addAt y (c - base) v)
        (L := fun l => [((S.getD (K * i + l) (0, 0)).1, (S.getD (K * i + l) (0, 0)).2 * (alpha * xi))]) ?_).congr ?_ ?_
    · intro l hl
      have hlt : K * i + l < S.length := by omega
      obtain ⟨e1, _⟩ := h.2 (K * i + l) hlt
      have hrr := hr _ (List.getElem_mem hlt)
      have hg : S.getD (K * i + l) (0, 0) = S[K * i + l] := by
        simp [List.getD_eq_getElem?_getD, List.getElem?_eq_getElem hlt]
      rw [hg]
      refine (Bumps.addAt hrr.1 hrr.2 (S[K * i + l].2 * (alpha * xi))).congr ?_ rfl
      intro y
      rw [Int.zero_add]
      rw [show lo + ((K * i : Nat) : Int) + (l : Int) - base = lo - base + ((K * i + l : Nat) : Int)
        by push_cast; ring, e1, rd_ofNat]
      simp [hl, List.getElem?_eq_getElem hlt]
    · intro y
      rw [hvy]
      rfl
    · rw [← List.map_eq_flatMap]
      apply List.ext_getElem?
      intro k
      by_cases hk : k < K
      · have hlt : K * i + k < S.length := by omega
        simp [hk, List.getElem?_take, List.getElem?_drop, List.getElem?_eq_getElem hlt, List.getD_eq_getElem?_getD]
      · simp [hk, List.getElem?_take]
  have hS : S = S.take (K * (S.length / K)) ++ S.drop (K * (S.length / K)) :=
    (List.take_append_drop _ _).symm
  have hsr : Seg ind val base (lo + ((K * (S.length / K) : Nat) : Int)) hi
      (S.drop (K * (S.length / K))) := by
    rw [hS] at h
    have := h.append_right
    rwa [List.length_take, Nat.min_eq_left (by omega)] at this
  have h2 := Bumps.seg hsr (len := len) (fun e he => hr e (List.mem_of_mem_drop he))
    (fun v => v * alpha * xi)
  refine (h1.comp h2).congr ?_ ?_
  · intro y
    unfold csrmvtRow
    simp only [hrem, hend, Option.bind_eq_bind]
  · unfold mvtRow
    rw [groups_flat]

variable {A : Csr R}

/-- the buffer of a thread -/
theorem csrmvtBuf_exact {K : Nat} (hK : 0 < K) (h : A.WF) (alpha : R) {x : List R}
    (hx : A.m ≤ x.length) {T t : Nat} (ht : t < T) :
    csrmvtBuf K A.base alpha A.m A.n A.val A.ind A.ptr x T t
      = some ((mvtRows K alpha A x (A.m * t / T) (A.m * (t + 1) / T)).foldl bumpX (List.replicate A.n 0)) := by
  obtain ⟨r1, r2, r3, r4⟩ := tRange A.m T t (by omega) ht
  unfold csrmvtBuf
  simp only [r1, r2]
  have := Bumps.forC (len := A.n) (lo := ((A.m * t / T : Nat) : Int)) (hi := ((A.m * (t + 1) / T : Nat) : Int))
    (n := A.m * (t + 1) / T - A.m * t / T) (by omega)
    (body := fun i b => do
      let lo ← rd A.ptr i
      let hi ← rd A.ptr (i + 1)
      let xi ← rd x i
      csrmvtRow K A.base alpha A.val A.ind lo hi xi b)
    (L := fun i => mvtRow K alpha (x.getD (A.m * t / T + i) 0) (A.row (A.m * t / T + i))) (by
      intro i hi
      have hlt : A.m * t / T + i < A.m := by omega
      refine (csrmvtRow_bumps hK (Csr.seg_row h hlt) (fun e he => Csr.row_range h he) alpha
        (x.getD (A.m * t / T + i) 0)).congr (fun y => ?_) rfl
      rw [show ((A.m * t / T : Nat) : Int) + (i : Int) = ((A.m * t / T + i : Nat) : Int) by push_cast; ring,
        show ((A.m * t / T + i : Nat) : Int) + 1 = ((A.m * t / T + i + 1 : Nat) : Int) by push_cast; ring,
        h.rd_ptr (by omega), h.rd_ptr (by omega), rd_ofNat, List.getElem?_eq_getElem (by omega)]
      simp [List.getD_eq_getElem?_getD, List.getElem?_eq_getElem (show A.m * t / T + i < x.length by omega)])
  rw [Int.toNat_natCast]
  exact this.run _ (by simp)

theorem mergeBuf_bumps {n : Nat} {b : List R} (hb : b.length = n) :
    Bumps n (fun y => mergeBuf (n : Int) y b) ((List.range n).map fun (i : Nat) => ((i : Int), b.getD i 0)) := by
  have := Bumps.forC (len := n) (lo := 0) (hi := (n : Int)) (n := n) (by omega)
    (body := fun i y => (rd b i).bind fun v => Model.addAt y i v) (L := fun i => [((i : Int), b.getD i 0)]) (by
      intro i hi
      refine (Bumps.addAt (by omega) (by omega) (b.getD i 0)).congr (fun y => ?_) rfl
      rw [Int.zero_add, rd_ofNat, List.getElem?_eq_getElem (by omega)]
      simp [List.getD_eq_getElem?_getD, List.getElem?_eq_getElem (show i < b.length by omega)])
  refine this.congr (fun y => rfl) ?_
  rw [← List.map_eq_flatMap]

omit [Mul R] in
theorem filter_cell (b : List R) (c : Nat) : ∀ n,
    (((List.range n).map fun (i : Nat) => ((i : Int), b.getD i 0)).filter fun e => e.1 = (c : Int))
      = if c < n then [((c : Int), b.getD c 0)] else []
  | 0 => by simp
  | n + 1 => by
    rw [List.range_succ, List.map_append, List.filter_append, filter_cell b c n]
    by_cases h : c = n
    · subst h; simp
    · have hne : n ≠ c := fun g => h g.symm
      by_cases hc : c < n
      · simp [hc, hne, show c < n + 1 by omega]
      · simp [hc, hne, show ¬ c < n + 1 by omega]

theorem mergeBuf_exact {n : Nat} {b y : List R} (hb : b.length = n) (hy : n ≤ y.length) :
    ∃ z, mergeBuf (n : Int) y b = some z ∧ z.length = y.length ∧
      ∀ c, z[c]? = y[c]?.map fun r => if c < n then r + b.getD c 0 else r := by
  refine ⟨_, (mergeBuf_bumps hb).run y hy, bumps_length .., fun c => ?_⟩
  rw [Bumps.cell (by simp)]
  congr 1
  funext r
  unfold mvtCol
  rw [filter_cell]
  split <;> rfl

/-- what a thread adds to the elements -/
theorem csrmvtBuf_cells {K : Nat} (hK : 0 < K) (h : A.WF) (alpha : R) {x : List R}
    (hx : A.m ≤ x.length) {T t : Nat} (ht : t < T) :
    ∃ b, csrmvtBuf K A.base alpha A.m A.n A.val A.ind A.ptr x T t = some b ∧ b.length = A.n ∧
      ∀ c, c < A.n → b.getD c 0 = mvtCol 0 (mvtRows K alpha A x (A.m * t / T) (A.m * (t + 1) / T)) c := by
  refine ⟨_, csrmvtBuf_exact hK h alpha hx ht, by rw [bumps_length]; simp, fun c hc => ?_⟩
  rw [List.getD_eq_getElem?_getD, Bumps.cell]
  · simp [hc]
  · intro e he
    unfold mvtRows at he
    obtain ⟨i, -, he⟩ := List.mem_flatMap.1 he
    unfold mvtRow at he
    rcases List.mem_append.1 he with he | he
    · obtain ⟨e, hm, rfl⟩ := List.mem_map.1 he
      exact (Csr.row_range h (List.mem_of_mem_take hm)).1
    · obtain ⟨e, hm, rfl⟩ := List.mem_map.1 he
      exact (Csr.row_range h (List.mem_of_mem_drop hm)).1

/-- the threads `ord` one after another -/
theorem mvt_merge_exact {K : Nat} (hK : 0 < K) (h : A.WF) (alpha : R) {x : List R}
    (hx : A.m ≤ x.length) {T : Nat} : ∀ (ord : List Nat), (∀ t ∈ ord, t < T) → ∀ {y : List R}, A.n ≤ y.length →
    ∃ z, (ord.foldlM (fun y t => (csrmvtBuf K A.base alpha A.m A.n A.val A.ind A.ptr x T t).bind fun b =>
        mergeBuf A.n y b) y) = some z ∧ z.length = y.length ∧
      ∀ c, z[c]? = y[c]?.map fun r => if c < A.n then
        ord.foldl (fun r t => r + mvtCol 0 (mvtRows K alpha A x (A.m * t / T) (A.m * (t + 1) / T)) c) r else r
  | [], _, y, _ => ⟨y, rfl, rfl, fun c => by simp⟩
  | t :: ord, ht, y, hy => by
    obtain ⟨b, e1, l1, c1⟩ := csrmvtBuf_cells hK h alpha hx (ht t (.head _))
    obtain ⟨z1, e2, l2, c2⟩ := mergeBuf_exact l1 hy
    obtain ⟨z, e3, l3, c3⟩ := mvt_merge_exact hK h alpha hx ord (fun s hs => ht s (.tail _ hs)) (y := z1) (by omega)
    refine ⟨z, ?_, by omega, fun c => ?_⟩
    · rw [List.foldlM_cons]
      show ((csrmvtBuf K A.base alpha A.m A.n A.val A.ind A.ptr x T t).bind _).bind _ = _
      rw [e1]
      show (mergeBuf _ y b).bind _ = _
      rw [e2]
      exact e3
    · rw [c3, c2, Option.map_map]
      congr 1
      funext r
      show (if c < A.n then _ else if c < A.n then _ else r) = _
      by_cases hc : c < A.n
      · rw [if_pos hc, if_pos hc, List.foldl_cons, ← c1 c hc]
        show List.foldl _ (if c < A.n then r + b.getD c 0 else r) ord = _
        rw [if_pos hc]
      · rw [if_neg hc, if_neg hc, if_neg hc]

end rows

section team
variable {R : Type} [Zero R] [One R] [Add R] [Mul R] [DecidableEq R] {A : Csr R}

theorem mvt_values {K : Nat} (hK : 0 < K) (h : A.WF) (alpha beta : R) {x y : List R}
    (hx : A.m ≤ x.length) (hy : A.n ≤ y.length) {T : Nat} {ord : List Nat} (hord : ∀ t ∈ ord, t < T) :
    ∃ z, csrmvtKt K A.base alpha A.m A.n A.val A.ind A.ptr x beta y T ord = some z ∧ z.length = y.length ∧
      ∀ c, z[c]? = y[c]?.map fun r => if c < A.n then mvtElt K alpha beta A x T ord c r else r := by
  obtain ⟨y1, e1, r1⟩ := scaleY_spec (beta := beta) (Rep.of_list y 0) hy
  obtain ⟨z, e2, l2, c2⟩ := mvt_merge_exact hK h alpha hx ord hord (y := y1) (by rw [r1.1]; exact hy)
  refine ⟨z, ?_, by rw [l2, r1.1], fun c => ?_⟩
  · unfold csrmvtKt
    rw [e1]
    exact e2
  · rw [c2]
    by_cases hcl : c < y.length
    · rw [r1.2 c hcl, List.getElem?_eq_getElem hcl]
      by_cases hc : c < A.n
      · have es : ∀ r, sc beta r = mvtScale beta r := by
          intro r
          unfold sc mvtScale
          by_cases h1 : beta = 1 <;> simp [h1]
        simp [hc, mvtElt, hcl, es, List.getD_eq_getElem?_getD]
      · simp [hc, hcl, List.getD_eq_getElem?_getD]
    · have := r1.1
      rw [List.getElem?_eq_none (by omega), List.getElem?_eq_none (by omega)]
      rfl

/-- the serial kernel -/
theorem mvt_serial (h : A.WF) (alpha beta : R) {x y : List R} (hx : A.m ≤ x.length) (hy : A.n ≤ y.length) :
    ∃ z, csrmvTh id A.base alpha A.m A.n A.val A.ind A.ptr x beta y = some z ∧ z.length = y.length ∧
      ∀ c, z[c]? = y[c]?.map fun r => if c < A.n then mvtCol (mvtScale beta r) (mvtRows 1 alpha A x 0 A.m) c else r := by
  obtain ⟨y1, e1, r1⟩ := scaleY_spec (beta := beta) (Rep.of_list y 0) hy
  have hb := Bumps.forC (len := A.n) (lo := 0) (hi := (A.m : Int)) (n := A.m) (by omega)
    (body := fun i y => do
      let lo ← rd A.ptr i
      let hi ← rd A.ptr (i + 1)
      let xi ← rd x i
      let axi := alpha * xi
      Verif.forC lo hi (fun j y => do
        let c ← rd A.ind (j - A.base)
        let v ← rd A.val (j - A.base)
        Model.addAt y (c - A.base) (id v * axi)) y)
    (L := fun i => mvtRow 1 alpha (x.getD (0 + i) 0) (A.row (0 + i))) (by
      intro i hi
      rw [Nat.zero_add]
      refine (Bumps.seg (Csr.seg_row h hi) (fun e he => Csr.row_range h he)
        (fun v => v * (alpha * x.getD i 0))).congr (fun y => ?_) ?_
      · rw [Int.zero_add, show (i : Int) + 1 = ((i + 1 : Nat) : Int) by push_cast; ring,
          h.rd_ptr (by omega), h.rd_ptr (by omega), rd_ofNat, List.getElem?_eq_getElem (by omega)]
        simp [List.getD_eq_getElem?_getD, List.getElem?_eq_getElem (show i < x.length by omega)]
      · unfold mvtRow
        simp)
  have hl := r1.1
  refine ⟨(mvtRows 1 alpha A x 0 A.m).foldl bumpX y1, ?_, ?_, fun c => ?_⟩
  · unfold csrmvTh
    rw [e1]
    exact hb.run y1 (by omega)
  · rw [bumps_length, hl]
  · have hrg : ∀ e ∈ mvtRows 1 alpha A x 0 A.m, 0 ≤ e.1 ∧ e.1 < (A.n : Int) := hb.range
    rw [Bumps.cell (fun e he => (hrg e he).1)]
    by_cases hcl : c < y.length
    · rw [r1.2 c hcl, List.getElem?_eq_getElem hcl]
      by_cases hc : c < A.n
      · have es : ∀ r, sc beta r = mvtScale beta r := by
          intro r
          unfold sc mvtScale
          by_cases h1 : beta = 1 <;> simp [h1]
        simp [hc, hcl, es, List.getD_eq_getElem?_getD]
      · have : ∀ r, mvtCol r (mvtRows 1 alpha A x 0 A.m) c = r := by
          intro r
          unfold mvtCol
          rw [List.filter_eq_nil_iff.2]
          · rfl
          · intro e he
            have := hrg e he
            simp only [decide_eq_true_eq]
            omega
        simp [hc, hcl, List.getD_eq_getElem?_getD, this]
    · rw [List.getElem?_eq_none (by omega), List.getElem?_eq_none (by omega)]
      rfl

omit [One R] [DecidableEq R] [Zero R] [Mul R] in
theorem mvtMergeP_exec (n : Int) (b y : List R) : (mvtMergeP n b).exec1 y = mergeBuf n y b := by
  unfold mvtMergeP mergeBuf
  rw [ThP.exec1_forP 0 n (fun i => (ThP.lift (rd b i)).bind fun v => updP i fun c => c + v) y]
  congr 1
  funext i y
  rw [ThP.exec1_lift]
  congr 1
  funext v
  unfold updP Model.addAt
  rw [ThP.exec1_read]
  congr 1
  funext c
  rw [ThP.exec1_write]
  cases wr y i (c + v) <;> rfl

theorem mvtThreadP_exec (K : Nat) (base : Int) (alpha : R) (m n : Int) (val : List R) (ind ptr : List Int)
    (x : List R) (T t : Nat) (y : List R) :
    (mvtThreadP K base alpha m n val ind ptr x T t).exec1 y
      = (csrmvtBuf K base alpha m n val ind ptr x T t).bind fun b => mergeBuf n y b := by
  unfold mvtThreadP
  rw [ThP.exec1_lift]
  congr 1
  funext b
  exact mvtMergeP_exec n b y

theorem mvtThreadP_steps (K : Nat) (base : Int) (alpha : R) (m n : Int) (val : List R) (ind ptr : List Int)
    (x : List R) (T t : Nat) :
    (mvtThreadP K base alpha m n val ind ptr x T t).Steps ((n - 0).toNat * 2) := by
  unfold mvtThreadP
  refine ThP.Steps.lift _ fun b => ?_
  unfold mvtMergeP ThP.forP
  refine ThP.Steps.forPN (fun i s => ThP.Steps.lift _ fun v => ?_) _ _ _
  exact ⟨1, rfl, fun c => ⟨0, rfl, rfl⟩⟩

theorem mvtThreadP_safe {K : Nat} (hK : 0 < K) (h : A.WF) (alpha : R) {x : List R}
    (hx : A.m ≤ x.length) {T t : Nat} (ht : t < T) {len : Nat} (hl : A.n ≤ len) :
    (mvtThreadP K A.base alpha A.m A.n A.val A.ind A.ptr x T t).Safe (fun i => 0 ≤ i ∧ i < (len : Int))
      (fun _ => True) := by
  obtain ⟨b, e1, l1, -⟩ := csrmvtBuf_cells hK h alpha hx ht
  refine ThP.Safe.lift e1 ?_
  refine ThP.Safe.forU fun i h0 h1 => ?_
  obtain ⟨v, hv⟩ := Option.isSome_iff_exists.1 (rd_isSome_iff (a := b).2 ⟨h0, by omega⟩)
  refine ThP.Safe.lift hv ?_
  exact ⟨⟨h0, by omega⟩, fun c => ⟨⟨h0, by omega⟩, trivial⟩⟩

/-- the loops that scale y -/
theorem mvt_scaling (beta : R) {n : Nat} {y : List R} (hn : n ≤ y.length) :
    ∃ y1, scaleY beta n y = some y1 ∧ y1.length = y.length ∧ (beta ≠ 0 → beta = 1 → y1 = y) ∧
      (beta = 0 ∨ beta ≠ 1 → ∀ T asg, Assigns n T asg → AllSchedules (loopP T asg (mvtScaleP beta)) (rd y) (rd y1)) := by
  obtain ⟨y1, hl, e1, -, -, hs⟩ := rows_schedules (m := n) (own := fun r x => x = (r : Int)) (P := mvtScaleP beta)
    (C0 := y) (by intro r x hr hx; omega) (by intro r r' x _ _ h h'; omega) (by
      intro r hr
      unfold mvtScaleP
      split
      · exact ⟨rfl, trivial⟩
      · exact ⟨rfl, fun v => ⟨rfl, trivial⟩⟩)
  by_cases h : beta = 0 ∨ beta ≠ 1
  · refine ⟨y1, ?_, hl, ?_, fun _ => hs⟩
    · rw [← e1]
      unfold scaleY mvtScaleP
      by_cases h0 : beta = 0
      · rw [if_pos h0]
        congr 1
        funext i y
        rw [if_pos h0, ThP.exec1_write]
        cases wr y i 0 <;> rfl
      · have h1 : beta ≠ 1 := h.resolve_left h0
        rw [if_neg h0, if_pos h1]
        congr 1
        funext i y
        rw [if_neg h0]
        unfold updP
        rw [ThP.exec1_read]
        congr 1
        funext c
        rw [ThP.exec1_write]
        cases wr y i (beta * c) <;> rfl
    · intro h0 h1
      rcases h with h | h
      · exact absurd h h0
      · exact absurd h1 h
  · push Not at h
    refine ⟨y, ?_, rfl, fun _ _ => rfl, fun h' => ?_⟩
    · unfold scaleY
      rw [if_neg h.1, if_neg (by simpa using h.2)]
    · rcases h' with h' | h'
      · exact absurd h' h.1
      · exact absurd h.2 h'

theorem mvtScale_len {beta : R} {n : Nat} {y y1 : List R} (hn : n ≤ y.length) (hs : scaleY beta n y = some y1) :
    y1.length = y.length := by
  obtain ⟨y2, e, hl, -⟩ := mvt_scaling beta hn
  rw [hs] at e
  cases e
  exact hl

/-- the region with the critical section -/
theorem mvt_region {K : Nat} (hK : 0 < K) (h : A.WF) (alpha : R) {x y : List R}
    (hx : A.m ≤ x.length) (hy : A.n ≤ y.length) (T : Nat) (fail : Nat → Bool) :
    CritOrders ((List.range T).filter fun t => !fail t)
      (mvtTeam fail K A.base alpha A.m A.n A.val A.ind A.ptr x T) (rd y)
      (fun ord => rd ((ord.foldlM (fun y t =>
        (csrmvtBuf K A.base alpha A.m A.n A.val A.ind A.ptr x T t).bind fun b => mergeBuf A.n y b) y).getD [])) := by
  have := crit_orders (ts := (List.range T).filter fun t => !fail t)
    (Q := mvtThreadP K A.base alpha A.m A.n A.val A.ind A.ptr x T) (C0 := y)
    (List.nodup_range.filter _) (k := ((A.n : Int) - 0).toNat * 2) (by
      intro t ht
      rw [List.mem_filter, List.mem_range] at ht
      exact mvtThreadP_safe hK h alpha hx ht.1 hy)
    (fun t _ => mvtThreadP_steps ..)
  have e1 : (fun t => if t ∈ (List.range T).filter (fun t => !fail t) then
      CrTh.out (mvtThreadP K A.base alpha A.m A.n A.val A.ind A.ptr x T t) else .fin)
      = mvtTeam fail K A.base alpha A.m A.n A.val A.ind A.ptr x T := by
    funext t
    unfold mvtTeam
    by_cases ht : t < T
    · cases hf : fail t <;> simp [ht, hf]
    · simp [ht]
  have e2 : (fun ord => rd ((crSeq (mvtThreadP K A.base alpha A.m A.n A.val A.ind A.ptr x T) ord y).getD []))
      = fun ord => rd ((ord.foldlM (fun y t =>
        (csrmvtBuf K A.base alpha A.m A.n A.val A.ind A.ptr x T t).bind fun b => mergeBuf A.n y b) y).getD []) := by
    funext ord
    unfold crSeq
    congr 3
    funext y t
    exact mvtThreadP_exec ..
  rw [e1, e2] at this
  exact this

end team

end Verif
