/-
csr2csc and coo2csr: functional correctness of the array-level models.
-/
import Verif.Proofs.Bucket
import Verif.Proofs.CsrLemmas

namespace Verif
open Model

variable {R : Type}

/-- The counting-sort pipeline common to csr2csc and coo2csr. -/
theorem bucketSort_spec {n N : Nat} {base baseOut : Int} {key : List Int}
    {items : List (Int × Int × R)} {cp ri : List Int} {cv : List R}
    (hb : baseOut = 0 ∨ baseOut = 1)
    (hkey : ∀ c ∈ key, base ≤ c ∧ c < base + n)
    (hitems : items.map (·.1) = key.map (· - base))
    (hpay : ∀ e ∈ items, baseOut ≤ e.2.1 ∧ e.2.1 < baseOut + N)
    (hcp : cp.length = n + 1) (hri : ri.length = key.length) (hcv : cv.length = key.length) :
    ∃ cp' ri' cv', (do
        let cp ← zeroPtr n cp
        let cp ← countKeys key.length base key cp
        let cp ← scanPtr n cp
        let (cp, ri, cv) ← items.foldlM (fun s e => placeOne e.1 e.2.1 e.2.2 s) (cp, ri, cv)
        let cp ← shiftPtr n baseOut cp
        some (cp, ri, cv)) = some (cp', ri', cv') ∧
      ri'.length = key.length ∧ cv'.length = key.length ∧
      let B : Csr R := ⟨n, N, baseOut, cp', ri', cv'⟩
      B.WF ∧ ∀ j, j < n →
        B.row j = (bucket items j).map (fun e => (e.1 - baseOut, e.2)) := by
  have hlen : items.length = key.length := by
    have := congrArg List.length hitems; simpa using this
  obtain ⟨c1, e1, r1⟩ := zeroPtr_spec hcp
  obtain ⟨c2, e2, r2⟩ := countKeys_spec r1 hkey
  obtain ⟨c3, e3, r3⟩ := scanPtr_spec (ks := key.map (· - base)) r2 (by
    intro c hc
    obtain ⟨d, hd, rfl⟩ := List.mem_map.1 hc
    have := hkey d hd; omega)
  rw [← hitems] at r3
  have hk' : ∀ e ∈ items, 0 ≤ e.1 ∧ e.1 < (n : Int) := by
    intro e he
    have : e.1 ∈ key.map (· - base) := by rw [← hitems]; exact List.mem_map_of_mem he
    obtain ⟨d, hd, hde⟩ := List.mem_map.1 this
    have := hkey d hd; omega
  obtain ⟨⟨c4, ri', cv'⟩, e4, r4, l1, l2, hbk⟩ := place_spec (ri := ri) (cv := cv) hk' r3
    (by omega) (by omega)
  dsimp only at r4 l1 l2 hbk
  have hz : startK (items.map (·.1)) 0 = 0 := startK_zero _ (by
    intro c hc
    obtain ⟨d, hd, rfl⟩ := List.mem_map.1 hc
    exact (hk' d hd).1)
  have hfull : startK (items.map (·.1)) n = items.length := by
    rw [startK_full _ n, List.length_map]
    intro c hc
    obtain ⟨d, hd, rfl⟩ := List.mem_map.1 hc
    exact (hk' d hd).2
  obtain ⟨c5, e5, r5⟩ := shiftPtr_spec (base := baseOut) hz r4
  refine ⟨c5, ri', cv', ?_, by omega, by omega, ?_⟩
  · simp [e1, e2, e3, e4, e5]
  · intro B
    have hp : ∀ k, k ≤ n → B.p k = (startK (items.map (·.1)) k : Int) + baseOut := by
      intro k hk
      exact r5.getD 0 (by omega)
    have hrow : ∀ j, j < n →
        B.row j = (bucket items j).map (fun e => (e.1 - baseOut, e.2)) := by
      intro j hj
      have hp0 := hp j (by omega)
      have hp1 := hp (j + 1) (by omega)
      have hbl := bucket_length items j
      have hsc := startK_succ (items.map (·.1)) j
      have hbase : B.base = baseOut := rfl
      refine Csr.row_eq_of_get (A := B) (by show cv'.length = ri'.length; omega)
        (by rw [hp0, hbase]; omega) (by rw [hp1, hp0, List.length_map]; omega) ?_
      intro t ht
      rw [List.length_map] at ht
      have := hbk j hj t ht
      have e : (B.p j - B.base).toNat = startK (items.map (·.1)) j := by rw [hp0, hbase]; omega
      rw [e]
      refine ⟨?_, ?_⟩
      · have h := this.1
        show ri'[_]? = _
        rw [h]; simp [hbase]
      · have h := this.2
        show cv'[_]? = _
        rw [h]; simp
    refine ⟨?_, hrow⟩
    constructor
    · exact hb
    · exact r5.len_eq
    · rw [hp 0 (by omega), hz]; simp [B]
    · intro i hi
      have hi' : i < n := hi
      rw [hp i (by omega), hp (i + 1) (by omega)]
      have := startK_mono (items.map (·.1)) (show i ≤ i + 1 by omega)
      omega
    · have : B.m = n := rfl
      rw [this, hp n (by omega), hfull]
      have : B.ind.length = items.length := l1
      have : B.base = baseOut := rfl
      omega
    · show cv'.length = ri'.length; omega
    · -- every written index is a payload
      intro c hc
      have hc' : c ∈ ri' := hc
      obtain ⟨q, hq, rfl⟩ := List.getElem_of_mem hc'
      -- find the bucket containing q
      have : ∃ j, j < n ∧ startK (items.map (·.1)) j ≤ q ∧ q < startK (items.map (·.1)) (j + 1) := by
        have hqn : q < startK (items.map (·.1)) n := by omega
        clear hbk e4 r4 r5 e5 hp hrow
        induction n with
        | zero => rw [hz] at hqn; omega
        | succ k ih =>
          by_cases h : q < startK (items.map (·.1)) k
          · by_contra hcon
            have aux : ∀ d, d ≤ k → startK (items.map (·.1)) (k - d) ≤ q → False := by
              intro d
              induction d with
              | zero => intro _ h2; simp at h2; omega
              | succ d ihd =>
                intro hd h2
                by_cases h3 : startK (items.map (·.1)) (k - d) ≤ q
                · exact ihd (by omega) h3
                · exact hcon ⟨k - (d + 1), by omega, h2, by
                    rw [show k - (d + 1) + 1 = k - d by omega]; omega⟩
            exact aux k (le_refl _) (by simp [hz])
          · exact ⟨k, by omega, by omega, hqn⟩
      obtain ⟨j, hj, h1, h2⟩ := this
      have ht : q - startK (items.map (·.1)) j < (bucket items j).length := by
        rw [bucket_length]
        rw [startK_succ] at h2; omega
      have hh := (hbk j hj _ ht).1
      rw [show startK (items.map (·.1)) j + (q - startK (items.map (·.1)) j) = q by omega,
        List.getElem?_eq_getElem hq] at hh
      have hmem : (bucket items j)[q - startK (items.map (·.1)) j] ∈ bucket items j :=
        List.getElem_mem ht
      obtain ⟨e, he, hee⟩ := List.mem_map.1 hmem
      have := hpay e (List.mem_of_mem_filter he)
      rw [hee] at this
      have h4 := Option.some.inj hh
      rw [h4]
      exact this

theorem entries_keys {A : Csr R} (h : A.WF) :
    A.entries.map (fun e => e.2.1) = A.ind.map (· - A.base) := by
  have := congrArg (List.map Prod.fst) (Csr.rows_flatten h)
  have h2 : A.entries.map (fun e => e.2.1)
      = ((List.range A.m).flatMap (fun i => A.row i)).map Prod.fst := by
    simp only [Csr.entries, List.map_flatMap, List.map_map]
    rfl
  rw [h2, this, List.map_map]
  have h3 : (fun (e : Int × R) => e.1 - A.base) = (fun c => c - A.base) ∘ Prod.fst := rfl
  show List.map (Prod.fst ∘ fun e : Int × R => (e.1 - A.base, e.2)) _ = _
  have : (Prod.fst ∘ fun e : Int × R => (e.1 - A.base, e.2)) = (fun c => c - A.base) ∘ Prod.fst :=
    rfl
  rw [this, ← List.map_map, List.map_fst_zip (by rw [h.val_len])]

theorem csr2csc_loop {A : Csr R} (h : A.WF) (baseCSC : Int) (s : CscOut R) :
    forC 0 (A.m : Int) (fun i s => do
      let row_begin ← rd A.ptr i
      let row_end ← rd A.ptr (i + 1)
      forC (row_begin - A.base) (row_end - A.base) (fun j s => do
        let c ← rd A.ind j
        let v ← rd A.val j
        placeOne (c - A.base) (i + baseCSC) v s) s) s
    = (A.entries.map (fun e => (e.2.1, (e.1 : Int) + baseCSC, e.2.2))).foldlM
        (fun s e => placeOne e.1 e.2.1 e.2.2 s) s := by
  rw [forC_eq_foldlM, foldlM_map', Csr.entries, foldlM_flatMap']
  refine foldlM_congr' ?_
  intro s i hi
  have hi' : i < A.m := List.mem_range.1 hi
  rw [show ((i : Int) + 1) = ((i + 1 : Nat) : Int) by omega, h.rd_ptr (by omega),
    h.rd_ptr (by omega)]
  simp only [Option.bind_eq_bind, Option.bind_some]
  have := Csr.forC_row h hi' (fun c v s => placeOne c ((i : Int) + baseCSC) v s) s
  simp only [Option.bind_eq_bind] at this
  rw [this, foldlM_map']

theorem csr2csc_core_spec {A : Csr R} (h : A.WF) {baseCSC : Int}
    (hb : baseCSC = 0 ∨ baseCSC = 1) {cp ri : List Int} {cv : List R}
    (hcp : cp.length = A.n + 1) (hri : ri.length = A.ind.length) (hcv : cv.length = A.ind.length) :
    ∃ B : Csr R, csr2cscCore A.m A.n A.ind.length A.base baseCSC A.ptr A.ind A.val (cp, ri, cv)
        = some (B.ptr, B.ind, B.val) ∧
      B.m = A.n ∧ B.n = A.m ∧ B.base = baseCSC ∧ B.WF ∧ B.ind.length = A.ind.length ∧
      ∀ j, j < A.n → B.row j =
        (A.entries.filter (fun e => e.2.1 = (j : Int))).map (fun e => ((e.1 : Int), e.2.2)) := by
  obtain ⟨cp', ri', cv', he, l1, _, hwf, hrow⟩ :=
    bucketSort_spec (n := A.n) (N := A.m) (base := A.base) (baseOut := baseCSC) (key := A.ind)
      (items := A.entries.map (fun e => (e.2.1, (e.1 : Int) + baseCSC, e.2.2)))
      (cp := cp) (ri := ri) (cv := cv) hb h.ind_range
      (by rw [List.map_map]; exact entries_keys h)
      (by
        intro e he
        obtain ⟨⟨i, c, v⟩, hm, rfl⟩ := List.mem_map.1 he
        have := (Csr.mem_entries.1 hm).1
        dsimp only at this ⊢
        omega)
      hcp hri hcv
  refine ⟨⟨A.n, A.m, baseCSC, cp', ri', cv'⟩, ?_, rfl, rfl, rfl, hwf, l1, ?_⟩
  · rw [← he]
    unfold csr2cscCore
    simp only [csr2csc_loop h]
  · intro j hj
    rw [hrow j hj]
    simp only [bucket, List.filter_map, List.map_map]
    congr 1
    funext e
    simp

end Verif
namespace Verif
open Model
variable {R : Type}

theorem coo_items_keys {A : Coo R} (h : A.WF) :
    (A.row.zip (A.col.zip A.val)).map (fun e => e.1) = A.row := by
  apply List.map_fst_zip
  rw [List.length_zip, h.col_len, h.val_len]; omega

theorem coo2csr_loop {A : Coo R} (h : A.WF) (s : CscOut R) :
    forC 0 (A.row.length : Int) (fun i s => do
      let r ← rd A.row i
      let c ← rd A.col i
      let v ← rd A.val i
      placeOne (r - A.base) c v s) s
    = ((A.row.zip (A.col.zip A.val)).map (fun e => (e.1 - A.base, e.2.1, e.2.2))).foldlM
        (fun s e => placeOne e.1 e.2.1 e.2.2 s) s := by
  rw [foldlM_map']
  have hz := forC_list (ind := A.row.zip (A.col.zip A.val)) (lo := 0) (hi := A.row.length)
    (g := fun e s => placeOne (e.1 - A.base) e.2.1 e.2.2 s) (s := s)
    (by omega) (by simp [h.col_len, h.val_len])
  have ht : ((A.row.zip (A.col.zip A.val)).drop (0 : Int).toNat).take
      ((A.row.length : Int) - 0).toNat = A.row.zip (A.col.zip A.val) := by
    simp only [Int.toNat_zero, List.drop_zero, Int.sub_zero, Int.toNat_natCast]
    rw [List.take_of_length_le]
    simp [h.col_len, h.val_len]
  rw [ht] at hz
  rw [← hz]
  refine forC_congr ?_
  intro i s h0 h1
  rw [rd_eq h0, rd_eq h0, rd_eq h0, rd_eq h0]
  have a1 : i.toNat < A.row.length := by omega
  have a2 : i.toNat < A.col.length := by rw [h.col_len]; omega
  have a3 : i.toNat < A.val.length := by rw [h.val_len]; omega
  rw [List.getElem?_eq_getElem a1, List.getElem?_eq_getElem a2, List.getElem?_eq_getElem a3,
    List.getElem?_eq_getElem (by simp; omega)]
  simp

theorem coo2csr_core_spec {A : Coo R} (h : A.WF) {cp ri : List Int} {cv : List R}
    (hcp : cp.length = A.m + 1) (hri : ri.length = A.row.length) (hcv : cv.length = A.row.length) :
    ∃ B : Csr R, coo2csrCore A.m A.row.length A.base A.row A.col A.val (cp, ri, cv)
        = some (B.ptr, B.ind, B.val) ∧
      B.m = A.m ∧ B.n = A.n ∧ B.base = A.base ∧ B.WF ∧ B.ind.length = A.row.length ∧
      ∀ i, i < A.m → B.row i =
        (A.entries.filter (fun e => e.1 = (i : Int))).map (fun e => (e.2.1, e.2.2)) := by
  obtain ⟨cp', ri', cv', he, l1, _, hwf, hrow⟩ :=
    bucketSort_spec (n := A.m) (N := A.n) (base := A.base) (baseOut := A.base) (key := A.row)
      (items := (A.row.zip (A.col.zip A.val)).map (fun e => (e.1 - A.base, e.2.1, e.2.2)))
      (cp := cp) (ri := ri) (cv := cv) h.base01 h.row_range
      (by
        have := congrArg (List.map (· - A.base)) (coo_items_keys h)
        rw [List.map_map] at this ⊢
        exact this)
      (by
        intro e he
        obtain ⟨⟨r, c, v⟩, hm, rfl⟩ := List.mem_map.1 he
        have := List.of_mem_zip hm
        have h2 := (List.of_mem_zip this.2).1
        exact h.col_range _ h2)
      hcp hri hcv
  refine ⟨⟨A.m, A.n, A.base, cp', ri', cv'⟩, ?_, rfl, rfl, rfl, hwf, l1, ?_⟩
  · rw [← he]
    unfold coo2csrCore
    simp only [coo2csr_loop h]
  · intro i hi
    rw [hrow i hi]
    simp only [bucket, Coo.entries, List.filter_map, List.map_map]
    rfl

/-- A matrix with no entries. -/
theorem empty_csr_wf (m n : Nat) (base : Int) (hb : base = 0 ∨ base = 1) :
    (⟨m, n, base, List.replicate (m + 1) base, [], []⟩ : Csr R).WF := by
  have hp : ∀ k, k ≤ m →
      (⟨m, n, base, List.replicate (m + 1) base, [], []⟩ : Csr R).p k = base := by
    intro k hk
    simp only [Csr.p, List.getD_eq_getElem?_getD, List.getElem?_replicate]
    rw [if_pos (by omega)]; rfl
  constructor
  · exact hb
  · simp
  · exact hp 0 (by omega)
  · intro i hi
    have hi' : i < m := hi
    rw [hp i (by omega), hp (i + 1) (by omega)]
  · show Csr.p _ m = _
    rw [hp m (le_refl _)]; simp
  · rfl
  · intro c hc; simp at hc

theorem fill_const {a : List Int} {n : Nat} {v : Int} (h : a.length = n + 1) :
    forC 0 ((n : Int) + 1) (fun i cp => wr cp i v) a = some (List.replicate (n + 1) v) := by
  obtain ⟨b, hb, hr⟩ := fill_rep (Rep.of_list a 0) (n := n + 1) (g := fun _ => v) (by omega)
    (fun i cp => wr cp i v) (by intros; rfl)
  have : ((n : Int) + 1) = ((n + 1 : Nat) : Int) := by omega
  rw [this, hb]
  congr 1
  have h2 : Rep b (n + 1) (fun _ => v) := by
    have hr' := hr
    rw [h] at hr'
    exact hr'.congr (by intro k hk; simp; omega)
  have h3 : Rep (List.replicate (n + 1) v) (n + 1) (fun _ => v) := by
    constructor
    · simp
    · intro k hk; simp [List.getElem?_replicate, hk]
  exact h2.ext h3

end Verif
