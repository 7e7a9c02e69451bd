import Verif.Proofs.Oft2
import Verif.Spec.Syrk
import Verif.Proofs.MCopy

namespace Verif
open Model Finset

variable {R : Type} [Semiring R]

/-- columns strictly increasing in every row -/
def Csr.Strict {R : Type} (A : Csr R) : Prop :=
  ∀ i, i < A.m → ((A.row i).map (·.1)).Pairwise (· < ·)

omit [Semiring R] in
theorem Csr.strict_of {A : Csr R} (h1 : A.Sorted) (h2 : A.NoDup) : A.Strict := by
  intro i hi
  have a := h1 i hi
  have b := h2 i hi
  exact (a.and b).imp fun h => lt_of_le_of_ne h.1 h.2

theorem pairwise_lt_inj {L : List Int} (h : L.Pairwise (· < ·)) {s t : Nat} (hs : s < L.length)
    (ht : t < L.length) (e : L[s] = L[t]) : s = t := by
  have hp := List.pairwise_iff_getElem.mp h
  by_contra hn
  rcases Nat.lt_or_gt_of_ne hn with h1 | h1
  · have := hp s t hs ht h1; omega
  · have := hp t s ht hs h1; omega

/-- the transposition on the fly with the values of the visited elements -/
theorem oft_rows {c : OftCfg} {m k : Nat} {st : Nat → Int} {sv : Nat → List (Int × R)} {val : List R}
    (hr : OftRows c m k st (fun x => (sv x).map (·.1)))
    (hval : ∀ x t, x < m → (h : t < (sv x).length) → rd val (st x + t) = some (sv x)[t].2)
    {irstart : List Int} {sOff : Int} (hst : ∀ x, x < m → rd irstart x = some (st x + sOff)) :
    ∃ (O : Nat → Oft) (X : Nat → List Nat), oftInit c m k irstart sOff = some (O 0) ∧
      ∀ j, j < k → (X j).Nodup ∧ (∀ x, x ∈ X j ↔ x < m ∧ (j : Int) ∈ (sv x).map (·.1)) ∧
        ∀ (σ : Type) (step : R → Int → σ → Option σ) (s : σ),
          oftCol c (fun row idx t => do
              let v ← rd val idx
              step v row t) m j (O j, s)
            = ((X j).foldlM (fun s (x : Nat) => step (colSum (sv x) j) (x : Int) s) s).map
                fun t => (O (j + 1), t) := by
  obtain ⟨O, V, e, h⟩ := oft_trace hr hst
  refine ⟨O, fun j => (V j).map (·.1), e, ?_⟩
  intro j hj
  obtain ⟨hv, hw⟩ := h j hj
  refine ⟨hv.nodup, ?_, ?_⟩
  · intro x
    rw [List.mem_map]
    constructor
    · rintro ⟨⟨y, t⟩, hm, rfl⟩
      obtain ⟨h1, h2⟩ := (hv.mem y t).mp hm
      exact ⟨h1, List.mem_of_getElem? h2⟩
    · rintro ⟨h1, h2⟩
      obtain ⟨t, ht⟩ := List.getElem?_of_mem h2
      exact ⟨(x, t), (hv.mem x t).mpr ⟨h1, ht⟩, rfl⟩
  · intro σ step s
    rw [hw σ _ s, foldlM_map']
    congr 1
    apply foldlM_congr'
    rintro s ⟨x, t⟩ hm
    obtain ⟨h1, h2⟩ := (hv.mem x t).mp hm
    obtain ⟨h3, h4⟩ := List.getElem?_eq_some_iff.mp h2
    have h3' : t < (sv x).length := by simpa using h3
    rw [List.getElem_map] at h4
    simp only [Option.bind_eq_bind]
    rw [hval x t h1 h3', Option.bind_some,
      colSum_single_pos (sv x) h3' h4 (fun q hq hqe =>
        pairwise_lt_inj (hr.incr x h1) (by simpa using hq) h3 (by simp [h4, hqe]))]

/-! ### the transposition of a whole matrix -/

/-- the rows having an element in column `j`, each once -/
structure ColVisits {R : Type} (A : Csr R) (X : Nat → List Nat) : Prop where
  nodup : ∀ j, j < A.n → (X j).Nodup
  mem : ∀ j, j < A.n → ∀ x, x ∈ X j ↔ x < A.m ∧ (j : Int) ∈ A.cols x

/-- the multiples of rows added to row `j` of Aᴴ·B -/
def atbW (cA : R → R) (A : Csr R) (X : Nat → List Nat) (j : Nat) : List (R × Nat) :=
  (X j).map fun x => (cA (A.mat x j), x)

omit [Semiring R] in
theorem row_rd {A : Csr R} (hA : A.WF) {x t : Nat} (hx : x < A.m) (ht : t < (A.row x).length) :
    rd A.ind (A.p x - A.base + t) = some ((A.row x)[t].1 + A.base) ∧
      rd A.val (A.p x - A.base + t) = some (A.row x)[t].2 := by
  have hl := Csr.row_length hA hx
  obtain ⟨c, v, e1, e2, e3⟩ := Csr.row_getElem? hA hx (t := t) (by omega)
  obtain ⟨_, e4⟩ := List.getElem?_eq_some_iff.mp e3
  rw [e4, e1, e2]
  exact ⟨by congr 1; simp, rfl⟩

omit [Semiring R] in
theorem atb_rows {A : Csr R} (hA : A.WF) (hs : A.Strict) :
    OftRows (atbCfg A.arrs) A.m A.n (fun x => A.p x - A.base) (fun x => (A.row x).map (·.1)) where
  fin := by
    intro x hx
    have hl := Csr.row_length hA hx
    have h2 := hA.rd_ptr (i := x + 1) (by omega)
    rw [rd_ofNat] at h2
    simp only [atbCfg, Csr.arrs]
    rw [rd_ofNat, List.getElem?_drop, Nat.add_comm 1 x, h2, List.length_map]
    congr 1
    omega
  col := by
    intro x t hx ht
    simp only [atbCfg, Csr.arrs]
    rw [(row_rd hA hx (by simpa using ht)).1, List.getElem_map]
  range := by
    intro x hx v hv
    obtain ⟨e, he, rfl⟩ := List.mem_map.mp hv
    exact Csr.row_range hA he
  incr := hs

theorem atb_visits {A : Csr R} (hA : A.WF) (hs : A.Strict) :
    ∃ (O : Nat → Oft) (X : Nat → List Nat), ColVisits A X ∧
      oftInit (atbCfg A.arrs) A.m A.n A.ptr A.base = some (O 0) ∧
      ∀ (σ : Type) (cA : R → R) (step : Int → R → Int → σ → Option σ),
        VisitsBy A.n O (atbW cA A X) (atbVisit cA A.arrs A.m step) step := by
  obtain ⟨O, X, e, h⟩ := oft_rows (val := A.val) (sv := A.row) (atb_rows hA hs)
    (fun x t hx ht => (row_rd hA hx ht).2) (irstart := A.ptr) (sOff := A.base)
    (fun x hx => by rw [hA.rd_ptr (by omega)]; congr 1; omega)
  refine ⟨O, X, ⟨fun j hj => (h j hj).1, fun j hj => (h j hj).2.1⟩, e, ?_⟩
  intro σ cA step i hi s
  unfold atbVisit atbW
  have := (h i hi).2.2 σ (fun v row t => step i (cA v) row t) s
  simp only [Csr.arrs]
  rw [foldlM_map']
  exact this

/-! ### the result -/

theorem spProd_colSum (onlyU : Bool) (cB : R →+* R) (B : Csr R) (i : Nat) (e : R × Nat) (c : Nat) :
    colSum (spProd onlyU cB B i e) c
      = if onlyU = true ∧ c < i then 0 else e.1 * cB (B.mat e.2 c) := by
  unfold spProd
  rw [colSum_map]
  split
  · rename_i h
    rw [colSum_zero, map_zero, mul_zero]
    intro f hf he
    rw [List.mem_filter] at hf
    have := hf.2
    simp only [decide_eq_true_eq] at this
    exact this ⟨h.1, by omega⟩
  · rename_i h
    congr 2
    rw [mat_eq_colSum]
    unfold colSum
    rw [List.filter_filter]
    congr 2
    apply List.filter_congr
    intro f _
    by_cases he : f.1 = (c : Int)
    · simp only [he, decide_true, Bool.true_and]
      rw [decide_eq_true_eq]
      rintro ⟨h1, h2⟩
      exact h ⟨h1, by omega⟩
    · simp [he]

theorem spOut_colSum (onlyU : Bool) (cB : R →+* R) (B : Csr R) (W : Nat → List (R × Nat)) (i c : Nat) :
    colSum (spOut onlyU cB B W i) c
      = if onlyU = true ∧ c < i then 0 else ((W i).map fun e => e.1 * cB (B.mat e.2 c)).sum := by
  unfold spOut
  rw [colSum_firsts, spProds, colSum_flatMap]
  split
  · rename_i h
    rw [List.sum_eq_zero]
    intro x hx
    obtain ⟨e, _, rfl⟩ := List.mem_map.mp hx
    rw [spProd_colSum, if_pos h]
  · rename_i h
    congr 1
    apply List.map_congr_left
    intro e _
    rw [spProd_colSum, if_neg h]

omit [Semiring R] in
theorem mem_cols_iff {A : Csr R} {x : Nat} {c : Int} : c ∈ A.cols x ↔ ∃ e ∈ A.row x, e.1 = c := by
  simp [Csr.cols]

theorem spOut_mem (onlyU : Bool) (cB : R → R) (B : Csr R) (W : Nat → List (R × Nat)) (i : Nat) (c : Nat) :
    (c : Int) ∈ (spOut onlyU cB B W i).map (·.1)
      ↔ ¬ (onlyU = true ∧ c < i) ∧ ∃ e ∈ W i, (c : Int) ∈ B.cols e.2 := by
  have e1 : (spOut onlyU cB B W i).map (·.1) = firsts ((spProds onlyU cB B W i).map (·.1)) := by
    simp [spOut, Function.comp_def]
  rw [e1, mem_firsts]
  simp only [spProds, spProd, List.map_flatMap, List.mem_flatMap, List.map_map, List.mem_map,
    List.mem_filter, decide_eq_true_eq, Function.comp, mem_cols_iff]
  constructor
  · rintro ⟨e, he, f, ⟨hf, hn⟩, hc⟩
    refine ⟨fun h => hn ⟨h.1, by omega⟩, e, he, f, hf, hc⟩
  · rintro ⟨hn, e, he, f, hf, hc⟩
    exact ⟨e, he, f, ⟨hf, fun h => hn ⟨h.1, by omega⟩⟩, hc⟩

theorem spOut_nodup (onlyU : Bool) (cB : R → R) (B : Csr R) (W : Nat → List (R × Nat)) (i : Nat) :
    ((spOut onlyU cB B W i).map (·.1)).Nodup := by
  have e1 : (spOut onlyU cB B W i).map (·.1) = firsts ((spProds onlyU cB B W i).map (·.1)) := by
    simp [spOut, Function.comp_def]
  rw [e1]
  exact firsts_nodup _

theorem spOut_range {B : Csr R} (hB : B.WF) (onlyU : Bool) (cB : R → R) (W : Nat → List (R × Nat))
    (i : Nat) {e : Int × R} (h : e ∈ spOut onlyU cB B W i) : 0 ≤ e.1 ∧ e.1 < B.n := by
  have : e.1 ∈ (spOut onlyU cB B W i).map (·.1) := List.mem_map_of_mem h
  have e1 : (spOut onlyU cB B W i).map (·.1) = firsts ((spProds onlyU cB B W i).map (·.1)) := by
    simp [spOut, Function.comp_def]
  rw [e1, mem_firsts] at this
  obtain ⟨f, hf, he⟩ := List.mem_map.mp this
  rw [← he]
  exact spProds_range hB onlyU cB W i hf

/-- an element of a column the row does not have is zero -/
theorem mat_zero_of_not_mem {A : Csr R} {x j : Nat} (h : (j : Int) ∉ A.cols x) : A.mat x j = 0 := by
  rw [mat_eq_colSum]
  apply colSum_zero
  intro e he hee
  exact h (mem_cols_iff.mpr ⟨e, he, hee⟩)

/-- a sum over the visited rows is the sum over all rows -/
theorem ColVisits.sum {A : Csr R} {X : Nat → List Nat} (hX : ColVisits A X) {j : Nat} (hj : j < A.n)
    (f : Nat → R) (hf : ∀ x, x < A.m → (j : Int) ∉ A.cols x → f x = 0) :
    ((X j).map f).sum = ∑ x ∈ range A.m, f x := by
  rw [← List.sum_toFinset f (hX.nodup j hj)]
  apply Finset.sum_subset
  · intro x hx
    rw [List.mem_toFinset, hX.mem j hj] at hx
    exact Finset.mem_range.mpr hx.1
  · intro x hx hn
    rw [List.mem_toFinset, hX.mem j hj] at hn
    exact hf x (Finset.mem_range.mp hx) fun h => hn ⟨Finset.mem_range.mp hx, h⟩

/-- the elements of Aᴴ·B -/
theorem atb_mat (cA cB : R →+* R) {A B : Csr R} {X : Nat → List Nat} (hX : ColVisits A X)
    (onlyU : Bool) {i : Nat} (hi : i < A.n) (c : Nat) :
    colSum (spOut onlyU cB B (atbW cA A X) i) c
      = if onlyU = true ∧ c < i then 0 else ∑ x ∈ range A.m, cA (A.mat x i) * cB (B.mat x c) := by
  rw [spOut_colSum]
  split
  · rfl
  · rw [atbW, List.map_map]
    refine hX.sum hi (fun x => cA (A.mat x i) * cB (B.mat x c)) ?_
    intro x _ hn
    rw [mat_zero_of_not_mem hn, map_zero, zero_mul]

/-- the stored positions of Aᴴ·B -/
theorem atb_mem (cA cB : R → R) {A B : Csr R} {X : Nat → List Nat} (hX : ColVisits A X)
    (onlyU : Bool) {i : Nat} (hi : i < A.n) (c : Nat) :
    (c : Int) ∈ (spOut onlyU cB B (atbW cA A X) i).map (·.1)
      ↔ ¬ (onlyU = true ∧ c < i) ∧ ∃ x < A.m, (i : Int) ∈ A.cols x ∧ (c : Int) ∈ B.cols x := by
  rw [spOut_mem, atbW]
  simp only [List.mem_map]
  constructor
  · rintro ⟨h, e, ⟨x, hx, rfl⟩, hc⟩
    obtain ⟨h1, h2⟩ := (hX.mem i hi x).mp hx
    exact ⟨h, x, h1, h2, hc⟩
  · rintro ⟨h, x, h1, h2, hc⟩
    exact ⟨h, _, ⟨x, (hX.mem i hi x).mpr ⟨h1, h2⟩, rfl⟩, hc⟩

/-! ### the base of the result -/

theorem inc_loop {a : List Int} {n : Nat} (hn : n ≤ a.length) :
    ∃ a', forC 0 (n : Int) incAt a = some a' ∧ a'.length = a.length ∧
      a'.take n = (a.take n).map (· + 1) := by
  obtain ⟨a', e, h1, h2, h3⟩ := forC_inv_nat (n := n) (f := incAt) (s := a)
    (fun t (b : List Int) => b.length = a.length ∧ (∀ q, q < t → b[q]? = a[q]?.map (· + 1)) ∧
      ∀ q, t ≤ q → b[q]? = a[q]?)
    ⟨rfl, fun q h => absurd h (by omega), fun _ _ => rfl⟩
    (by
      rintro t b ht ⟨h1, h2, h3⟩
      refine ⟨b.set t (a[t] + 1), ?_, by simpa using h1, ?_, ?_⟩
      · unfold incAt
        rw [rd_ofNat, h3 t (le_refl _), List.getElem?_eq_getElem (by omega)]
        simp only [Option.bind_eq_bind, Option.bind_some]
        rw [wr_ofNat (by omega)]
      · intro q hq
        by_cases e : q = t
        · subst e
          rw [List.getElem?_set_self (by omega), List.getElem?_eq_getElem (by omega)]
          rfl
        · rw [List.getElem?_set_ne (by omega)]; exact h2 q (by omega)
      · intro q hq
        rw [List.getElem?_set_ne (by omega)]; exact h3 q (by omega))
  refine ⟨a', e, h1, ?_⟩
  apply List.ext_getElem?
  intro q
  by_cases hq : q < n
  · rw [List.getElem?_take_of_lt hq, h2 q hq, List.getElem?_map, List.getElem?_take_of_lt hq]
  · rw [List.getElem?_eq_none (by simp; omega), List.getElem?_eq_none (by simp; omega)]

theorem fixBase_ok {k n : Nat} {rows : Nat → List (Int × R)} {ptr ind : List Int} {val : List R}
    (h : HoldsCsr (mkCsr k n 0 rows) ptr ind val) {baseC : Int} (hb : baseC = 0 ∨ baseC = 1)
    (hi : offs rows k ≤ ind.length) :
    ∃ ptr' ind', fixBase baseC k (ptr, ind, val, (offs rows k : Int))
        = some (ptr', ind', val, (offs rows k : Int)) ∧
      ind'.length = ind.length ∧ HoldsCsr (mkCsr k n baseC rows) ptr' ind' val := by
  obtain ⟨h1, h2, h3⟩ := h
  rw [mkCsr_nnz] at h2 h3
  rcases hb with rfl | rfl
  · exact ⟨ptr, ind, rfl, rfl, h1, by rw [mkCsr_nnz]; exact h2, by rw [mkCsr_nnz]; exact h3⟩
  · have hpl : ptr.length = k + 1 := by rw [h1]; simp [mkCsr]
    obtain ⟨ptr', e1, l1, t1⟩ := inc_loop (a := ptr) (n := k + 1) (by omega)
    obtain ⟨ind', e2, l2, t2⟩ := inc_loop (a := ind) (n := offs rows k) hi
    refine ⟨ptr', ind', ?_, l2, ?_, ?_, ?_⟩
    · unfold fixBase
      rw [if_pos rfl]
      rw [show ((k + 1 : Nat) : Int) = (k : Int) + 1 by omega] at e1
      simp only [Option.bind_eq_bind]
      rw [e1, Option.bind_some, e2]
      rfl
    · rw [List.take_of_length_le (by omega), List.take_of_length_le (by omega)] at t1
      rw [t1, h1]
      simp only [mkCsr, List.map_map]
      apply List.map_congr_left
      intro i _
      simp only [Function.comp]
      omega
    · rw [mkCsr_nnz, t2, h2]
      simp [mkCsr]
    · rw [mkCsr_nnz, h3]
      rfl

/-- the result of Aᴴ·B with base `baseC`, given the visited rows -/
def atbCsr (onlyU : Bool) (cA cB : R → R) (A B : Csr R) (X : Nat → List Nat) (baseC : Int) : Csr R :=
  mkCsr A.n B.n baseC (spOut onlyU cB B (atbW cA A X))

/-- Aᴴ·B: both stages, with the same visits -/
theorem atb_ok {A : Csr R} (hA : A.WF) (hs : A.Strict) : ∃ X, ColVisits A X ∧
    (∀ {B : Csr R} (_ : B.WF) (_ : A.m = B.m) (onlyU : Bool) (cA cB : R → R) (w : Nat) (ptr : List Int)
      (_ : ptr.length = A.n + 1),
      atbCount w onlyU A.m A.n B.n A.arrs B.arrs ptr
        = some (if sumOverflow 64 w ((atbCsr onlyU cA cB A B X 0).nnz : Int) then .invalidSize
            else .success, (atbCsr onlyU cA cB A B X 0).ptr, ((atbCsr onlyU cA cB A B X 0).nnz : Int))) ∧
    (∀ {B : Csr R} (_ : B.WF) (_ : A.m = B.m) (onlyU : Bool) (cA cB : R → R) (baseC : Int)
      (_ : baseC = 0 ∨ baseC = 1) (ptr ind : List Int) (val : List R) (_ : ptr.length = A.n + 1)
      (_ : (atbCsr onlyU cA cB A B X 0).nnz ≤ ind.length)
      (_ : (atbCsr onlyU cA cB A B X 0).nnz ≤ val.length),
      ∃ ptr' ind' val', atbFill onlyU cA cB A.m A.n B.n A.arrs B.arrs baseC ptr ind val
          = some (ptr', ind', val', ((atbCsr onlyU cA cB A B X 0).nnz : Int)) ∧
        ind'.length = ind.length ∧ val'.length = val.length ∧
        HoldsCsr (atbCsr onlyU cA cB A B X baseC) ptr' ind' val') := by
  obtain ⟨O, X, hX, e, hv⟩ := atb_visits hA hs
  have hW : ∀ {B : Csr R} (_ : A.m = B.m) (cA : R → R), ∀ i, i < A.n → ∀ e ∈ atbW cA A X i, e.2 < B.m := by
    intro B hm cA i hi e he
    obtain ⟨x, hx, rfl⟩ := List.mem_map.mp he
    rw [← hm]
    exact ((hX.mem i hi x).mp hx).1
  have hpt : ∀ rows : Nat → List (Int × R), ∀ n : Nat,
      (List.range (A.n + 1)).map (fun i => ((offs rows i : Nat) : Int)) = (mkCsr A.n n 0 rows).ptr := by
    intro rows n
    simp [mkCsr]
  refine ⟨X, hX, ?_, ?_⟩
  · intro B hB hm onlyU cA cB w ptr hp
    unfold atbCount
    simp only [Option.bind_eq_bind, Int.toNat_natCast]
    rw [show oftInit (atbCfg A.arrs) A.m A.n A.arrs.ptr A.arrs.base = some (O 0) from e, Option.bind_some]
    -- the conjugation does not matter for the counts
    have hcnt := countRows_ok hB onlyU cB (k := A.n) (w := w) (O := O) (hW hm id)
      (visit := atbVisit id A.arrs A.m (spRowCnt onlyU B.arrs)) (hv _ id _) hp
    rw [hcnt]
    have hlen : ∀ i, (spOut onlyU cB B (atbW id A X) i).length
        = (spOut onlyU cB B (atbW cA A X) i).length := by
      intro i
      rw [spOut_length, spOut_length]
      congr 2
      simp only [spProds, spProd, atbW, List.map_flatMap, List.flatMap_map, List.map_map]
      rfl
    have hoffs : ∀ i, offs (spOut onlyU cB B (atbW id A X)) i
        = offs (spOut onlyU cB B (atbW cA A X)) i := by
      intro i
      simp only [offs, hlen]
    simp only [atbCsr, mkCsr_nnz, ← hpt, hoffs]
  · intro B hB hm onlyU cA cB baseC hbc ptr ind val hp hi hl
    simp only [atbCsr, mkCsr_nnz] at hi hl ⊢
    obtain ⟨ind', val', ef, l1, l2, w1, w2⟩ := fillRows_ok hB onlyU cB (k := A.n) (O := O) (hW hm cA)
      (visit := atbVisit cA A.arrs A.m (spRowAdd onlyU cB B.arrs)) (hv _ cA _) hp hi hl
    have hm2 := fill_mkCsr (B := B) (k := A.n) (by rw [l1]; exact hi) (by rw [l2]; exact hl) w1 w2
    have hH : HoldsCsr (mkCsr A.n B.n 0 (spOut onlyU cB B (atbW cA A X)))
        ((List.range (A.n + 1)).map (fun i => ((offs (spOut onlyU cB B (atbW cA A X)) i : Nat) : Int)))
        ind' val' := by
      rw [← hm2]
      have hn : (⟨A.n, B.n, 0, (List.range (A.n + 1)).map
          (fun i => ((offs (spOut onlyU cB B (atbW cA A X)) i : Nat) : Int)),
          ind'.take (offs (spOut onlyU cB B (atbW cA A X)) A.n),
          val'.take (offs (spOut onlyU cB B (atbW cA A X)) A.n)⟩ : Csr R).nnz
            = offs (spOut onlyU cB B (atbW cA A X)) A.n := by
        simp only [Csr.nnz, List.length_take]
        omega
      exact ⟨rfl, by rw [hn], by rw [hn]⟩
    obtain ⟨ptr'', ind'', e2, l3, hH2⟩ := fixBase_ok hH hbc (by rw [l1]; exact hi)
    refine ⟨ptr'', ind'', val', ?_, l3.trans l1, l2, hH2⟩
    unfold atbFill
    simp only [Option.bind_eq_bind, Int.toNat_natCast]
    rw [show oftInit (atbCfg A.arrs) A.m A.n A.arrs.ptr A.arrs.base = some (O 0) from e, Option.bind_some,
      ef, Option.bind_some, e2]

end Verif
