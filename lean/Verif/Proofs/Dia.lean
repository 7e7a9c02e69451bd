/-
Proofs about the DIA conversion.
-/
import Verif.Proofs.Loop
import Verif.Proofs.Get
import Verif.Core.Prefix
import Verif.Model.Dia
import Verif.Spec.Dia

namespace Verif
open Model

variable {R : Type}

/-- position of an entry's diagonal in the work array -/
def diaKey (m : Nat) (e : Nat × Int × R) : Int := e.2.1 - e.1 + m

/-- some entry of the list lies on diagonal `k - m` -/
def pop (m : Nat) (L : List (Nat × Int × R)) (k : Nat) : Bool :=
  L.any fun e => decide (diaKey m e = (k : Int))

theorem pop_iff {m : Nat} {L : List (Nat × Int × R)} {k : Nat} :
    pop m L k = true ↔ ∃ e ∈ L, diaKey m e = (k : Int) := by
  simp [pop]

theorem pop_append {m : Nat} {L : List (Nat × Int × R)} {x : Nat × Int × R} {k : Nat} :
    pop m (L ++ [x]) k = (pop m L k || decide (diaKey m x = (k : Int))) := by
  simp [pop, List.any_append]

/-- number of populated diagonals before `k` -/
def rank (m : Nat) (L : List (Nat × Int × R)) (k : Nat) : Nat :=
  ((List.range k).filter (pop m L)).length

theorem rank_succ {m : Nat} {L : List (Nat × Int × R)} {k : Nat} :
    rank m L (k + 1) = rank m L k + if pop m L k then 1 else 0 := by
  unfold rank
  rw [List.range_succ, List.filter_append, List.length_append]
  congr 1
  by_cases h : pop m L k <;> simp [h]

theorem rank_mono {m : Nat} {L : List (Nat × Int × R)} {k l : Nat} (h : k ≤ l) :
    rank m L k ≤ rank m L l := by
  induction h with
  | refl => exact le_refl _
  | step h ih => exact le_trans ih (by rw [rank_succ]; omega)

theorem rank_lt {m : Nat} {L : List (Nat × Int × R)} {k l : Nat} (h : k < l) (hp : pop m L k = true) :
    rank m L k < rank m L l := by
  have := rank_mono (m := m) (L := L) (show k + 1 ≤ l from h)
  rw [rank_succ, if_pos hp] at this
  omega

theorem rank_inj {m : Nat} {L : List (Nat × Int × R)} {k l : Nat} (hk : pop m L k = true)
    (hl : pop m L l = true) (h : rank m L k = rank m L l) : k = l := by
  rcases Nat.lt_trichotomy k l with h1 | h1 | h1
  · have := rank_lt h1 hk; omega
  · exact h1
  · have := rank_lt h1 hl; omega

theorem filter_range_rank {p : Nat → Bool} {N k : Nat} (hk : k < N) (hp : p k = true) :
    ((List.range N).filter p)[((List.range k).filter p).length]? = some k := by
  obtain ⟨d, rfl⟩ : ∃ d, N = k + (d + 1) := ⟨N - k - 1, by omega⟩
  rw [List.range_add, List.filter_append, List.getElem?_append_right (le_refl _), Nat.sub_self,
    List.range_succ_eq_map, List.map_cons, Nat.add_zero, List.filter_cons_of_pos hp]
  rfl

/-- one more distinct element -/
theorem rank_insert {m N : Nat} {L : List (Nat × Int × R)} {x : Nat × Int × R} {k0 : Nat}
    (hx : diaKey m x = (k0 : Int)) (hk : k0 < N) :
    rank m (L ++ [x]) N = rank m L N + if pop m L k0 then 0 else 1 := by
  have aux : ∀ n, rank m (L ++ [x]) n = rank m L n +
      if pop m L k0 then 0 else if k0 < n then 1 else 0 := by
    intro n
    induction n with
    | zero => simp [rank]
    | succ n ih =>
      rw [rank_succ, rank_succ, ih, pop_append, hx]
      by_cases hn : k0 = n
      · subst hn
        by_cases hp : pop m L k0 <;> simp [hp]
      · have : ¬ ((k0 : Int) = n) := by omega
        by_cases hp : pop m L k0 <;> by_cases hq : pop m L n <;> by_cases hlt : k0 < n <;>
          simp [hp, hq, hlt, this, show (k0 < n + 1) ↔ k0 < n by omega]
        all_goals omega
  rw [aux N]
  simp [hk]

/-- the offsets of the populated diagonals, in increasing order -/
def Csr.diagOffsets (A : Csr R) : List Int :=
  ((List.range (A.m + A.n)).filter (pop A.m A.entries)).map fun (k : Nat) => (k : Int) - A.m

theorem entry_range {A : Csr R} (h : A.WF) {e : Nat × Int × R} (he : e ∈ A.entries) :
    e.1 < A.m ∧ 0 ≤ e.2.1 ∧ e.2.1 < A.n := by
  obtain ⟨h1, h2⟩ := Csr.mem_entries.1 he
  have := Csr.row_range h h2
  exact ⟨h1, this.1, this.2⟩

theorem key_range {A : Csr R} (h : A.WF) {e : Nat × Int × R} (he : e ∈ A.entries) :
    0 ≤ diaKey A.m e ∧ diaKey A.m e < ((A.m + A.n : Nat) : Int) := by
  obtain ⟨h1, h2, h3⟩ := entry_range h he
  unfold diaKey
  push_cast
  omega

theorem diagOffsets_length (A : Csr R) : A.diagOffsets.length = rank A.m A.entries (A.m + A.n) := by
  simp [Csr.diagOffsets, rank]

theorem mem_diagOffsets {A : Csr R} (h : A.WF) {o : Int} :
    o ∈ A.diagOffsets ↔ ∃ e ∈ A.entries, e.2.1 - e.1 = o := by
  unfold Csr.diagOffsets
  simp only [List.mem_map, List.mem_filter, List.mem_range, pop_iff]
  constructor
  · rintro ⟨k, ⟨hk, e, he, hek⟩, rfl⟩
    exact ⟨e, he, by unfold diaKey at hek; omega⟩
  · rintro ⟨e, he, rfl⟩
    have := key_range h he
    exact ⟨(diaKey A.m e).toNat, ⟨by omega, e, he, by omega⟩, by
      unfold diaKey at this ⊢; omega⟩

theorem diagOffsets_sorted (A : Csr R) : A.diagOffsets.Pairwise (· < ·) := by
  unfold Csr.diagOffsets
  rw [List.pairwise_map]
  refine (List.Pairwise.filter _ List.pairwise_lt_range).imp ?_
  intro a b hab
  omega

theorem diagOffsets_rank {A : Csr R} {k : Nat} (hk : k < A.m + A.n)
    (hp : pop A.m A.entries k = true) :
    A.diagOffsets[rank A.m A.entries k]? = some ((k : Int) - A.m) := by
  unfold Csr.diagOffsets rank
  rw [List.getElem?_map, filter_range_rank hk hp]
  rfl

theorem ndiag_spec {A : Csr R} (h : A.WF) :
    csr2diaNdiag A.m A.n A.base A.ptr A.ind = some (A.diagOffsets.length : Int) := by
  unfold csr2diaNdiag
  rw [Csr.forC_entries h (G := fun e s => do
    let x ← rd s.1 (diaKey A.m e)
    if x = 0 then do
      let d ← wr s.1 (diaKey A.m e) 1
      some (d, s.2 + 1)
    else some s) (by
      intro i j c v s _ h1 _ _
      unfold ndiagStep diaKey
      simp only [h1, Option.bind_eq_bind, Option.bind_some, add_sub_cancel_right])]
  obtain ⟨s, h1, h2, h3⟩ := foldlM_inv (l := A.entries)
    (s := (List.replicate ((A.m : Int) + A.n).toNat (0 : Int), (0 : Int)))
    (f := fun (s : List Int × Int) e => do
      let x ← rd s.1 (diaKey A.m e)
      if x = 0 then do
        let d ← wr s.1 (diaKey A.m e) 1
        some (d, s.2 + 1)
      else some s)
    (P := fun pre s => Rep s.1 (A.m + A.n) (fun k => if pop A.m pre k then (1 : Int) else 0) ∧
      s.2 = (rank A.m pre (A.m + A.n) : Int)) (by
      constructor
      · refine ⟨by simp; omega, fun k hk => ?_⟩
        rw [List.getElem?_replicate, if_pos (by omega)]
        simp [pop]
      · have : (List.range (A.m + A.n)).filter (pop (R := R) A.m []) = [] := by
          simp [pop]
        simp [rank, this]) (by
      rintro pre x suf ⟨d, cnt⟩ hl ⟨hd, hc⟩
      have hmem : x ∈ A.entries := by rw [hl]; simp
      have hr := key_range h hmem
      obtain ⟨k0, hk0⟩ : ∃ k0 : Nat, diaKey A.m x = (k0 : Int) := ⟨(diaKey A.m x).toNat, by omega⟩
      have hlt : k0 < A.m + A.n := by omega
      simp only [hk0, hd.rd_nat hlt, Option.bind_eq_bind, Option.bind_some]
      by_cases hp : pop A.m pre k0
      · simp only [hp, if_true, one_ne_zero, if_false]
        refine ⟨_, rfl, hd.congr ?_, ?_⟩
        · intro k _
          rw [pop_append, hk0]
          by_cases hkk : k = k0
          · subst hkk; simp [hp]
          · have : ¬ ((k0 : Int) = k) := by omega
            simp [this]
        · rw [hc, rank_insert hk0 hlt, if_pos hp]
          rfl
      · simp only [hp, if_true, Bool.false_eq_true, if_false]
        obtain ⟨b, hb, hbr⟩ := hd.wr_nat (i := k0) 1 hlt
        simp only [hb, Option.bind_some]
        refine ⟨_, rfl, hbr.congr ?_, ?_⟩
        · intro k _
          rw [pop_append, hk0]
          by_cases hkk : k = k0
          · subst hkk; simp
          · have : ¬ ((k0 : Int) = k) := by omega
            rw [Function.update_of_ne hkk]
            simp [this]
        · rw [rank_insert hk0 hlt, if_neg hp]
          simp only at hc
          rw [hc]; push_cast; rfl)
  rw [h1]
  simp only [Option.bind_eq_bind, Option.bind_some, h3, diagOffsets_length]

theorem mark_spec {A : Csr R} (h : A.WF) :
    ∃ idx, forC 0 (A.m : Int) (fun i s => do
      let b ← rd A.ptr i
      let e ← rd A.ptr (i + 1)
      forC (b - A.base) (e - A.base) (diaMark A.m A.base A.ind i) s)
        (List.replicate ((A.m : Int) + A.n).toNat 0) = some idx ∧
      Rep idx (A.m + A.n) (fun k => if pop A.m A.entries k then (1 : Int) else 0) := by
  rw [Csr.forC_entries h (G := fun e s => do
    let x ← rd s (diaKey A.m e)
    if x = 0 then wr s (diaKey A.m e) 1 else some s) (by
      intro i j c v s _ h1 _ _
      unfold diaMark diaKey
      simp only [h1, Option.bind_eq_bind, Option.bind_some, add_sub_cancel_right])]
  refine foldlM_inv (l := A.entries)
    (P := fun pre s => Rep s (A.m + A.n) (fun k => if pop A.m pre k then (1 : Int) else 0)) ?_ ?_
  · refine ⟨by simp; omega, fun k hk => ?_⟩
    rw [List.getElem?_replicate, if_pos (by omega)]
    simp [pop]
  · rintro pre x suf d hl hd
    have hmem : x ∈ A.entries := by rw [hl]; simp
    have hr := key_range h hmem
    obtain ⟨k0, hk0⟩ : ∃ k0 : Nat, diaKey A.m x = (k0 : Int) := ⟨(diaKey A.m x).toNat, by omega⟩
    have hlt : k0 < A.m + A.n := by omega
    simp only [hk0, hd.rd_nat hlt, Option.bind_eq_bind, Option.bind_some]
    by_cases hp : pop A.m pre k0
    · simp only [hp, if_true, one_ne_zero, if_false]
      refine ⟨_, rfl, hd.congr ?_⟩
      intro k _
      rw [pop_append, hk0]
      by_cases hkk : k = k0
      · subst hkk; simp [hp]
      · have : ¬ ((k0 : Int) = k) := by omega
        simp [this]
    · simp only [hp, if_true, Bool.false_eq_true, if_false]
      obtain ⟨b, hb, hbr⟩ := hd.wr_nat (i := k0) 1 hlt
      refine ⟨b, hb, hbr.congr ?_⟩
      intro k _
      rw [pop_append, hk0]
      by_cases hkk : k = k0
      · subst hkk; simp
      · have : ¬ ((k0 : Int) = k) := by omega
        rw [Function.update_of_ne hkk]
        simp [this]

theorem number_spec {A : Csr R} {idx off : List Int} 
    (hidx : Rep idx (A.m + A.n) (fun k => if pop A.m A.entries k then (1 : Int) else 0))
    (hoff : A.diagOffsets.length ≤ off.length) :
    ∃ s, forC 0 ((A.m : Int) + A.n) (diaNumber A.m) (idx, off, 0) = some s ∧
      (∀ k, k < A.m + A.n → pop A.m A.entries k = true →
        s.1[k]? = some (rank A.m A.entries k : Int)) ∧ s.1.length = A.m + A.n ∧
      Pre s.2.1 off.length A.diagOffsets := by
  rw [diagOffsets_length] at hoff
  rw [show (A.m : Int) + A.n = ((A.m + A.n : Nat) : Int) by push_cast; rfl]
  obtain ⟨s, h1, h2, h3, h4⟩ := forC_inv_nat (n := A.m + A.n) (f := diaNumber A.m)
    (s := (idx, off, (0 : Int)))
    (P := fun i s => Rep s.1 (A.m + A.n) (fun k => if pop A.m A.entries k then
        (if k < i then (rank A.m A.entries k : Int) else 1) else 0) ∧
      Pre s.2.1 off.length
        (((List.range i).filter (pop A.m A.entries)).map fun (k : Nat) => (k : Int) - A.m) ∧
      s.2.2 = (rank A.m A.entries i : Int))
    ⟨by simpa using hidx, Pre.nil rfl, by simp [rank]⟩ (by
      rintro i ⟨d, o, q⟩ hi ⟨hd, ho, hq⟩
      simp only at hq hd ho
      subst hq
      unfold diaNumber
      simp only [hd.rd_nat hi, Option.bind_eq_bind, Option.bind_some, lt_irrefl, if_false]
      rw [rank_succ, List.range_succ, List.filter_append, List.map_append]
      by_cases hp : pop A.m A.entries i
      · simp only [hp, if_true, ne_eq, one_ne_zero, not_false_iff]
        obtain ⟨d', hd', hd''⟩ := hd.wr_nat (i := i) (rank A.m A.entries i : Int) hi
        have hrl := rank_lt hi hp
        obtain ⟨o', ho', ho''⟩ := ho.wr ((i : Int) - A.m) (k := (rank A.m A.entries i : Int))
          (by simp [rank]) (by simp only [List.length_map]; unfold rank at *; omega)
        simp only [hd', ho', Option.bind_some]
        refine ⟨_, rfl, hd''.congr ?_, ?_, by push_cast; rfl⟩
        · intro k _
          by_cases hki : k = i
          · subst hki; rw [Function.update_self]; simp [hp]
          · rw [Function.update_of_ne hki]
            simp only [show k < i + 1 ↔ k < i by omega]
        · simpa [hp] using ho''
      · simp only [hp, Bool.false_eq_true, if_false, ne_eq, not_true_eq_false]
        refine ⟨_, rfl, hd.congr ?_, ?_, by simp⟩
        · intro k _
          by_cases hki : k = i
          · subst hki; simp [hp]
          · simp only [show k < i + 1 ↔ k < i by omega]
        · simpa [hp] using ho)
  refine ⟨s, h1, ?_, h2.1, h3⟩
  intro k hk hp
  rw [h2.2 k hk]
  simp [hp, hk]

/-- the conversion: offsets in increasing order, each entry in its place, the rest untouched -/
theorem csr2dia_core {A : Csr R} (h : A.WF) {nd : Int} {off : List Int} {dval : List R}
    (hm : A.m ≠ 0) (hn : A.n ≠ 0) (hnd : nd ≠ 0)
    (hoff : A.diagOffsets.length ≤ off.length) (hdv : A.m * A.diagOffsets.length ≤ dval.length) :
    ∃ off' dval', csr2dia A.m A.n A.base A.ptr A.ind A.val nd off dval = some (off', dval') ∧
      Pre off' off.length A.diagOffsets ∧ dval'.length = dval.length ∧
      (A.NoDup → ∀ e ∈ A.entries, ∃ d : Nat, A.diagOffsets[d]? = some (e.2.1 - e.1) ∧
        dval'[e.1 + A.m * d]? = some e.2.2) ∧
      (∀ k, (∀ e ∈ A.entries, ∀ d, A.diagOffsets[d]? = some (e.2.1 - e.1) → k ≠ e.1 + A.m * d) →
        dval'[k]? = dval[k]?) := by
  unfold csr2dia
  rw [if_neg (by omega)]
  obtain ⟨idx, e1, hidx⟩ := mark_spec h
  obtain ⟨s, e2, hs1, hs2, hs3⟩ := number_spec hidx hoff
  simp only [Option.bind_eq_bind] at e1
  simp only [Option.bind_eq_bind, e1, e2, Option.bind_some]
  have hkey : ∀ e ∈ A.entries, ∃ k : Nat, diaKey A.m e = (k : Int) ∧ k < A.m + A.n ∧
      pop A.m A.entries k = true := by
    intro e he
    have hr := key_range h he
    refine ⟨(diaKey A.m e).toNat, by omega, by omega, pop_iff.2 ⟨e, he, by omega⟩⟩
  have hfold := Csr.forC_entries h (F := diaPut (A.m : Int) A.base A.ind A.val s.1)
    (G := fun e dv => wr1 dv ((e.1 : Int) + A.m * (rank A.m A.entries (diaKey A.m e).toNat : Nat), e.2.2))
    (by
      intro i j c v dv hi h1 h2 h3
      have he : ((i, c, v) : Nat × Int × R) ∈ A.entries := Csr.mem_entries.2 ⟨hi, h3⟩
      obtain ⟨k, hk, hkl, hp⟩ := hkey _ he
      have hk' : c + A.base - A.base - (i : Int) + A.m = (k : Int) := by
        unfold diaKey at hk; simp only at hk; omega
      unfold diaPut
      simp only [h1, h2, Option.bind_eq_bind, Option.bind_some, hk', rd_ofNat, hs1 k hkl hp, hk]
      rfl) dval
  simp only [Option.bind_eq_bind] at hfold
  rw [hfold]
  have hmap := foldlM_map' wr1 (fun e : Nat × Int × R =>
    ((e.1 : Int) + A.m * (rank A.m A.entries (diaKey A.m e).toNat : Nat), e.2.2)) A.entries dval
  rw [← hmap]
  obtain ⟨dv, d1, d2, d3, d4⟩ := scatter1
    (A.entries.map fun e => ((e.1 : Int) + A.m * (rank A.m A.entries (diaKey A.m e).toNat : Nat), e.2.2))
    dval (by
      intro x hx
      obtain ⟨e, he, rfl⟩ := List.mem_map.1 hx
      obtain ⟨k, hk, hkl, hp⟩ := hkey _ he
      have hrl := rank_lt hkl hp
      rw [← diagOffsets_length] at hrl
      have her := entry_range h he
      simp only [hk, Int.toNat_natCast]
      have := off_lt (w := (A.m : Int)) (i := (rank A.m A.entries k : Nat)) (j := e.1)
        (m := (A.diagOffsets.length : Nat)) (by omega) (by omega) (by omega)
      have e3 : ((A.m : Int) * (A.diagOffsets.length : Nat)) ≤ dval.length := by exact_mod_cast hdv
      constructor
      · have := Int.mul_nonneg (Int.natCast_nonneg A.m) (Int.natCast_nonneg (rank A.m A.entries k))
        omega
      · rw [mul_comm] at e3; rw [mul_comm (A.m : Int)]; omega)
  rw [d1]
  refine ⟨s.2.1, dv, rfl, hs3, d2, ?_, ?_⟩
  · intro hnd e he
    obtain ⟨k, hk, hkl, hp⟩ := hkey _ he
    refine ⟨rank A.m A.entries k, ?_, ?_⟩
    · rw [diagOffsets_rank hkl hp]
      congr 1
      unfold diaKey at hk
      omega
    · apply d3
      · exact ⟨_, List.mem_map.2 ⟨e, he, rfl⟩, by simp [hk]⟩
      · intro x hx hxe
        obtain ⟨e', he', rfl⟩ := List.mem_map.1 hx
        obtain ⟨k', hk', hkl', hp'⟩ := hkey _ he'
        simp only [hk', Int.toNat_natCast] at hxe
        push_cast at hxe
        have her := entry_range h he
        have her' := entry_range h he'
        obtain ⟨q1, q2⟩ := off_inj (w := (A.m : Int)) (i := (rank A.m A.entries k' : Nat))
          (j := e'.1) (i' := (rank A.m A.entries k : Nat)) (j' := e.1) (by omega) (by omega)
          (by omega) (by omega) (by rw [mul_comm, add_comm, hxe, mul_comm, add_comm])
        have hkk := rank_inj hp' hp (by exact_mod_cast q1)
        subst hkk
        obtain ⟨i, c, v⟩ := e
        obtain ⟨i', c', v'⟩ := e'
        simp only [diaKey] at hk hk' q2 her ⊢
        have hii : i' = i := by omega
        subst hii
        have hcc : c' = c := by omega
        subst hcc
        have m1 := (Csr.mem_entries.1 he).2
        have m2 := (Csr.mem_entries.1 he').2
        have := List.inj_on_of_nodup_map (hnd i' her.1) m2 m1 rfl
        exact (Prod.mk.inj this).2
  · intro k hk
    apply d4
    intro x hx hxe
    obtain ⟨e, he, rfl⟩ := List.mem_map.1 hx
    obtain ⟨k', hk', hkl', hp'⟩ := hkey _ he
    refine hk e he (rank A.m A.entries k') ?_ ?_
    · rw [diagOffsets_rank hkl' hp']
      congr 1
      unfold diaKey at hk'
      omega
    · simp only [hk', Int.toNat_natCast] at hxe
      exact_mod_cast hxe.symm

end Verif
