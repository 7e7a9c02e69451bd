import Verif.Model.MatCheck
import Verif.Spec.MatCheck
import Verif.Core.Lists
import Verif.Proofs.CsrLemmas

namespace Verif
open Model
variable {R : Type}

/-- 0 = fully sorted, 1 = partially, 2 = unsorted -/
def sortRank : MatSort → Nat
  | .fully => 0 | .partially => 1 | .unsorted => 2 | .unknown => 3

def rowRank (i : Nat) (js : List Int) : Nat :=
  if ¬ js.Pairwise (fun a b => Csr.grp i a ≤ Csr.grp i b) then 2
  else if ¬ js.Pairwise (· ≤ ·) then 1 else 0

theorem grp_le_of_le {i : Nat} {a b : Int} (h : a ≤ b) : Csr.grp i a ≤ Csr.grp i b := by
  unfold Csr.grp; split_ifs <;> omega

/-- the scan invariant after the (zero-based) prefix `P` of row `i` -/
structure ScanInv (i : Nat) (s0 : MatSort) (P : List Int) (s : Scan) : Prop where
  diag : s.diagonal = true ↔ (i : Int) ∈ P
  upper : s.upper = true ↔ ∃ x ∈ P, (i : Int) < x
  rank : sortRank s.sort = max (sortRank s0) (rowRank i P)
  prev : s.sort ≠ .unsorted → (∀ x ∈ P, x ≤ s.prev) ∧ (s.prev = -1 ∨ s.prev ∈ P)
  known : s.sort ≠ .unknown

theorem pairwise_snoc {r : Int → Int → Prop} {P : List Int} {x : Int} :
    (P ++ [x]).Pairwise r ↔ P.Pairwise r ∧ ∀ a ∈ P, r a x := by
  rw [List.pairwise_append]
  simp

theorem rowRank_snoc (i : Nat) (P : List Int) (j : Int) :
    rowRank i (P ++ [j]) =
      max (rowRank i P) (if ∃ a ∈ P, Csr.grp i j < Csr.grp i a then 2
        else if ∃ a ∈ P, j < a then 1 else 0) := by
  unfold rowRank
  simp only [pairwise_snoc]
  have e3 : (∀ a ∈ P, Csr.grp i a ≤ Csr.grp i j) ↔ ¬ ∃ a ∈ P, Csr.grp i j < Csr.grp i a := by
    push Not; rfl
  have e4 : (∀ a ∈ P, a ≤ j) ↔ ¬ ∃ a ∈ P, j < a := by
    push Not; rfl
  simp only [e3, e4]
  clear e3 e4
  by_cases h1 : P.Pairwise (fun a b => Csr.grp i a ≤ Csr.grp i b) <;>
  by_cases h2 : P.Pairwise (· ≤ ·) <;>
  by_cases h3 : (∃ a ∈ P, Csr.grp i j < Csr.grp i a) <;>
  by_cases h4 : (∃ a ∈ P, j < a) <;>
    simp only [h1, h2, h3, h4] <;> simp

theorem scanStep_spec {i : Nat} {base jmin jmax c : Int} {s0 : MatSort} {P : List Int} {s : Scan}
    (hjm : 0 ≤ jmin)
    (h : ScanInv i s0 P s) :
    (∃ s', scanStep base i jmin jmax c s = .ok s' ∧ ScanInv i s0 (P ++ [c - base]) s' ∧
        jmin ≤ c - base ∧ c - base ≤ jmax ∧ ¬ ((i : Int) ∈ P ∧ c - base = i)) ∨
    (∃ e, scanStep base i jmin jmax c s = .error e ∧
      ((e = .invalidIndexValue ∧ ¬ (jmin ≤ c - base ∧ c - base ≤ jmax)) ∨
       (e = .invalidValue ∧ (i : Int) ∈ P ∧ c - base = i))) := by
  obtain ⟨hd, hu, hrank, hprev, hk⟩ := h
  generalize hj : c - base = j
  by_cases hr : j < jmin ∨ j > jmax
  · right
    refine ⟨.invalidIndexValue, ?_, .inl ⟨rfl, by omega⟩⟩
    unfold scanStep
    simp only [hj]
    rw [if_pos hr]
  · -- the "sort" update
    have hgrp : (∃ a ∈ P, Csr.grp i j < Csr.grp i a) ↔
        (j ≤ i ∧ s.upper = true) ∨ (j < i ∧ s.diagonal = true) := by
      rw [hu, hd]
      constructor
      · rintro ⟨a, ha, hlt⟩
        unfold Csr.grp at hlt
        split_ifs at hlt
        all_goals first
          | (simp at hlt; done)
          | (rename_i h; rw [← h]; exact .inr ⟨by omega, ha⟩)
          | (exact .inl ⟨by omega, a, ha, by omega⟩)
      · rintro (⟨h1, a, ha, h2⟩ | ⟨h1, ha⟩)
        · refine ⟨a, ha, ?_⟩
          unfold Csr.grp; split_ifs <;> omega
        · refine ⟨i, ha, ?_⟩
          unfold Csr.grp; split_ifs <;> omega
    obtain ⟨s1, hs1, hs1d, hs1u, hs1r, hs1p, hs1k⟩ :
        ∃ s1 : Scan, (if s.sort ≠ .unsorted then
            let s := if s.prev > j then { s with sort := MatSort.partially } else { s with prev := j }
            if (j ≤ i ∧ s.upper = true) ∨ (j < i ∧ s.diagonal = true)
            then { s with sort := .unsorted } else s
          else s) = s1 ∧ s1.diagonal = s.diagonal ∧ s1.upper = s.upper ∧
          sortRank s1.sort = max (sortRank s0) (rowRank i (P ++ [j])) ∧
          (s1.sort ≠ .unsorted → (∀ x ∈ P ++ [j], x ≤ s1.prev) ∧
            (s1.prev = -1 ∨ s1.prev ∈ P ++ [j])) ∧ s1.sort ≠ .unknown := by
      refine ⟨_, rfl, ?_⟩
      by_cases hun : s.sort = .unsorted
      · rw [if_neg (by simpa using hun)]
        refine ⟨rfl, rfl, ?_, ?_, hk⟩
        · rw [rowRank_snoc, hrank]
          rw [hun] at hrank
          have : sortRank MatSort.unsorted = 2 := rfl
          have : (if ∃ a ∈ P, Csr.grp i j < Csr.grp i a then 2
            else if ∃ a ∈ P, j < a then 1 else 0) ≤ 2 := by split_ifs <;> simp
          clear hgrp hu hprev
          omega
        · intro h; exact absurd hun h
      · rw [if_pos hun]
        obtain ⟨hp1, hp2⟩ := hprev hun
        have hle : (∃ a ∈ P, j < a) ↔ s.prev > j := by
          constructor
          · rintro ⟨a, ha, h⟩; have := hp1 a ha; omega
          · intro h
            rcases hp2 with h2 | h2
            · omega
            · exact ⟨s.prev, h2, h⟩
        have hsr : sortRank s.sort ≤ 1 := by
          revert hun hk; cases s.sort <;> simp [sortRank]
        by_cases hpj : s.prev > j
        · simp only [if_pos hpj]
          by_cases hg : (j ≤ i ∧ s.upper = true) ∨ (j < i ∧ s.diagonal = true)
          · rw [if_pos hg]
            refine ⟨rfl, rfl, ?_, ?_, by simp⟩
            · rw [rowRank_snoc, if_pos (hgrp.2 hg)]
              have : sortRank MatSort.unsorted = 2 := rfl
              show sortRank MatSort.unsorted = _
              clear hgrp hle hu hprev
              omega
            · intro h; exact absurd rfl h
          · rw [if_neg hg]
            refine ⟨rfl, rfl, ?_, ?_, by simp⟩
            · rw [rowRank_snoc, if_neg (fun h => hg (hgrp.1 h)), if_pos (hle.2 hpj)]
              have : sortRank MatSort.partially = 1 := rfl
              show sortRank MatSort.partially = _
              clear hgrp hle hu hprev
              omega
            · intro _
              refine ⟨?_, ?_⟩
              · intro x hx
                rcases List.mem_append.1 hx with hx | hx
                · exact hp1 x hx
                · have : x = j := by simpa using hx
                  show x ≤ s.prev; omega
              · rcases hp2 with h2 | h2
                · exact .inl h2
                · exact .inr (List.mem_append_left _ h2)
        · simp only [if_neg hpj]
          by_cases hg : (j ≤ i ∧ s.upper = true) ∨ (j < i ∧ s.diagonal = true)
          · exfalso
            obtain ⟨a, ha, h⟩ := hgrp.2 hg
            have : ¬ j < a := fun h => hpj (hle.1 ⟨a, ha, h⟩)
            have := grp_le_of_le (i := i) (show a ≤ j by omega)
            omega
          · rw [if_neg hg]
            refine ⟨rfl, rfl, ?_, ?_, hk⟩
            · rw [rowRank_snoc, if_neg (fun h => hg (hgrp.1 h)), if_neg (fun h => hpj (hle.1 h))]
              show sortRank s.sort = _
              clear hgrp hle hu hprev
              omega
            · intro _
              refine ⟨?_, .inr (by simp)⟩
              intro x hx
              rcases List.mem_append.1 hx with hx | hx
              · have : ¬ j < x := fun h => hpj (hle.1 ⟨x, hx, h⟩)
                show x ≤ j; omega
              · have : x = j := by simpa using hx
                show x ≤ j; omega
    by_cases hji : j > i
    · left
      refine ⟨{ s1 with upper := true }, ?_, ⟨?_, ?_, hs1r, hs1p, hs1k⟩, by omega, by omega, by omega⟩
      · unfold scanStep
        simp only [hj]
        rw [if_neg hr, hs1, if_pos hji]
      · show s1.diagonal = true ↔ _
        rw [hs1d, hd]
        simp; omega
      · simp
        right; omega
    · by_cases hje : j = i
      · by_cases hdg : s.diagonal = true
        · right
          refine ⟨.invalidValue, ?_, .inr ⟨rfl, hd.1 hdg, hje⟩⟩
          unfold scanStep
          simp only [hj]
          rw [if_neg hr, hs1, if_neg hji, if_pos hje, hs1d, if_pos hdg]
        · left
          refine ⟨{ s1 with diagonal := true }, ?_, ⟨?_, ?_, hs1r, hs1p, hs1k⟩, by omega, by omega, ?_⟩
          · unfold scanStep
            simp only [hj]
            rw [if_neg hr, hs1, if_neg hji, if_pos hje, hs1d, if_neg hdg]
          · simp [hje]
          · show s1.upper = true ↔ _
            rw [hs1u, hu]
            simp [hje]
          · rintro ⟨h1, _⟩
            exact hdg (hd.2 h1)
      · left
        refine ⟨s1, ?_, ⟨?_, ?_, hs1r, hs1p, hs1k⟩, by omega, by omega, by omega⟩
        · unfold scanStep
          simp only [hj]
          rw [if_neg hr, hs1, if_neg hji, if_neg hje]
        · rw [hs1d, hd]
          simp; omega
        · rw [hs1u, hu]
          simp
          omega


theorem find_row (p : Nat → Int) (m : Nat) (q : Int) (h0 : p 0 ≤ q) (h1 : q < p m) :
    ∃ i, i < m ∧ p i ≤ q ∧ q < p (i + 1) := by
  induction m with
  | zero => omega
  | succ k ih =>
    by_cases h : q < p k
    · obtain ⟨i, hi, h2⟩ := ih h
      exact ⟨i, by omega, h2⟩
    · exact ⟨k, by omega, by omega, h1⟩

/-- the stored (based) indices of row `i` -/
def seg (A : Csr R) (i : Nat) : List Int :=
  (A.ind.drop (A.p i - A.base).toNat).take (A.p (i + 1) - A.p i).toNat

theorem cols_eq_seg (A : Csr R) (hv : A.val.length = A.ind.length) (i : Nat) :
    A.cols i = (seg A i).map (· - A.base) := by
  unfold Csr.cols Csr.row seg
  rw [List.map_map]
  have : (Prod.fst ∘ fun e : Int × R => (e.1 - A.base, e.2)) = (fun c => c - A.base) ∘ Prod.fst :=
    rfl
  show List.map (Prod.fst ∘ fun e : Int × R => (e.1 - A.base, e.2)) _ = _
  rw [this, ← List.map_map, List.map_take, List.map_drop, List.map_fst_zip (by omega)]

/-- index bounds by shape -/
def jminOf (shape : Shape) (i : Int) : Int := if shape = .upper then i else 0
def jmaxOf (shape : Shape) (n : Int) (i : Int) : Int := if shape = .lower then i else n - 1

/-- what mat_check accepts, row by row -/
structure Accept (A : Csr R) (shape : Shape) : Prop where
  first : A.p 0 = A.base
  last : A.p A.m = A.base + A.ind.length
  mono : ∀ i, i < A.m → A.p i ≤ A.p (i + 1)
  idx : ∀ i, i < A.m → ∀ j ∈ A.cols i, jminOf shape i ≤ j ∧ j ≤ jmaxOf shape A.n i
  diag : A.OneDiag

/-- ranks of all rows below `k` -/
def maxRank (A : Csr R) : Nat → Nat
  | 0 => 0
  | k + 1 => max (maxRank A k) (rowRank k (A.cols k))

/-- the statuses with which mat_check rejects arrays -/
def BadSt (e : Status) : Prop := e = .invalidValue ∨ e = .invalidIndexValue

theorem BadSt.ne {e : Status} (h : BadSt e) : e ≠ .success := by
  rcases h with rfl | rfl <;> simp

theorem matCheck_spec (A : Csr R) (shape : Shape) (hp : A.ptr.length = A.m + 1)
    (hv : A.val.length = A.ind.length) :
    (∃ st fd, matCheck A.m A.n A.ind.length (some A.ptr) (some A.ind) (some A.val) shape A.base
        false = some (.ok (st, fd)) ∧ Accept A shape ∧ sortRank st = maxRank A A.m ∧
        (fd = true ↔ A.FullDiag)) ∨
    (∃ e, matCheck A.m A.n A.ind.length (some A.ptr) (some A.ind) (some A.val) shape A.base
        false = some (.error e) ∧ ¬ Accept A shape ∧ BadSt e) := by
  have hrep : Rep A.ptr (A.m + 1) A.p := by
    have := Rep.of_list A.ptr 0
    rw [hp] at this
    exact this
  have hrd : ∀ {i : Nat}, i ≤ A.m → rd A.ptr (i : Int) = some (A.p i) :=
    fun {i} h => hrep.rd_nat (by omega)
  have r0 : rd A.ptr 0 = some (A.p 0) := hrd (i := 0) (by omega)
  unfold matCheck
  simp only []
  rw [if_neg (by omega), r0]
  simp only [Option.bind_eq_bind, Option.bind_some]
  by_cases h0 : A.p 0 - A.base ≠ 0
  · rw [if_pos h0]
    exact .inr ⟨_, rfl, fun h => h0 (by rw [h.first]; omega), .inl rfl⟩
  rw [if_neg h0, hrd (le_refl _)]
  simp only [Option.bind_some]
  by_cases h1 : A.p A.m - A.base ≠ (A.ind.length : Int)
  · rw [if_pos h1]
    exact .inr ⟨_, rfl, fun h => h1 (by rw [h.last]; omega), .inl rfl⟩
  rw [if_neg h1]
  simp only [Bool.false_eq_true, if_false]
  have hmono := forE_inv (lo := 1) (hi := (A.m : Int) + 1) (s := ())
    (f := fun i (_ : Unit) => do
            let a ← rd A.ptr (i - 1)
            let b ← rd A.ptr i
            some (if a > b then Except.error Status.invalidValue else Except.ok ()))
    (P := fun i _ => ∀ k : Nat, (k : Int) + 1 < i → A.p k ≤ A.p (k + 1))
    (Q := fun e => (¬ ∀ k, k < A.m → A.p k ≤ A.p (k + 1)) ∧ BadSt e) (by omega)
    (by intro k hk; omega)
    (by
      intro i _ hi0 hi1 hpi
      obtain ⟨k, rfl⟩ : ∃ k : Nat, i = ((k + 1 : Nat) : Int) := ⟨(i - 1).toNat, by omega⟩
      have e : (((k + 1 : Nat) : Int) - 1) = (k : Int) := by omega
      rw [e, hrd (by omega), hrd (by omega)]
      simp only [Option.bind_eq_bind, Option.bind_some]
      by_cases hgt : A.p k > A.p (k + 1)
      · right
        refine ⟨_, by rw [if_pos hgt], ?_, .inl rfl⟩
        intro h
        have := h k (by omega)
        omega
      · left
        refine ⟨(), by rw [if_neg hgt], ?_⟩
        intro k' hk'
        by_cases hkk : k' = k
        · subst hkk; omega
        · exact hpi k' (by omega))
  simp only [Option.bind_eq_bind] at hmono
  rcases hmono with ⟨u, hok, hm⟩ | ⟨e, herr, hnm, hbad⟩
  swap
  · rw [herr]
    exact .inr ⟨e, rfl, fun h => hnm h.mono, hbad⟩
  rw [hok]
  simp only [Option.bind_some]
  have hm' : ∀ k, k < A.m → A.p k ≤ A.p (k + 1) := fun k hk => hm k (by omega)
  have hmm : ∀ {i j : Nat}, i ≤ j → j ≤ A.m → A.p i ≤ A.p j := by
    intro i j hij
    induction hij with
    | refl => intro _; exact le_refl _
    | step hle ih =>
      intro hj
      have := ih (by omega)
      exact le_trans this (hm' _ (Nat.lt_of_succ_le hj))
  -- the main loop
  have hmain := forE_inv (lo := 0) (hi := (A.m : Int)) (s := (MatSort.fully, true))
    (f := fun i (st : MatSort × Bool) => do
              let e ← rd A.ptr (i + 1)
              let b ← rd A.ptr i
              let r ← forE (b - A.base) (e - A.base) (fun idx (s : Scan) => do
                let c ← rd A.ind idx
                some (scanStep A.base i (if shape = .upper then i else 0)
                  (if shape = .lower then i else (A.n : Int) - 1) c s)) ⟨st.1, -1, false, false⟩
              match r with
              | .error e => some (.error e)
              | .ok s => some (.ok (s.sort,
                  if s.diagonal = false ∧ i < (A.n : Int) then false else st.2)))
    (P := fun i st => (∀ k : Nat, (k : Int) < i →
        (∀ j ∈ A.cols k, jminOf shape k ≤ j ∧ j ≤ jmaxOf shape A.n k) ∧
        (A.cols k).count (k : Int) ≤ 1) ∧
      sortRank st.1 = maxRank A i.toNat ∧ st.1 ≠ .unknown ∧
      (st.2 = true ↔ ∀ k : Nat, (k : Int) < i → k < A.n → (k : Int) ∈ A.cols k))
    (Q := fun e => BadSt e ∧ ∃ k, k < A.m ∧
      ¬ ((∀ j ∈ A.cols k, jminOf shape k ≤ j ∧ j ≤ jmaxOf shape A.n k) ∧
        (A.cols k).count (k : Int) ≤ 1)) (by omega)
    (by
      refine ⟨by intro k hk; omega, rfl, by simp, ?_⟩
      simp)
    (by
      intro i st hi0 hi1 hpi
      obtain ⟨hA, hB, hK, hC⟩ := hpi
      obtain ⟨k, rfl⟩ : ∃ k : Nat, i = (k : Int) := ⟨i.toNat, by omega⟩
      have hk : k < A.m := by omega
      rw [show (k : Int) + 1 = ((k + 1 : Nat) : Int) by omega, hrd (by omega), hrd (by omega)]
      simp only [Option.bind_eq_bind, Option.bind_some]
      have hlo := hmm (Nat.zero_le k) (by omega)
      have hhi := hmm (show k + 1 ≤ A.m by omega) (le_refl _)
      have hmk := hm' k hk
      have inner := forE_list_inv (ind := A.ind) (lo := A.p k - A.base) (hi := A.p (k + 1) - A.base)
        (f := scanStep A.base k (jminOf shape k) (jmaxOf shape A.n k))
        (s := ⟨st.1, -1, false, false⟩)
        (P := fun pre s => ScanInv k st.1 (pre.map (· - A.base)) s ∧
          (∀ j ∈ pre.map (· - A.base), jminOf shape k ≤ j ∧ j ≤ jmaxOf shape A.n k) ∧
          (pre.map (· - A.base)).count (k : Int) ≤ 1)
        (Q := fun e => BadSt e ∧ ¬ ((∀ j ∈ A.cols k, jminOf shape k ≤ j ∧ j ≤ jmaxOf shape A.n k) ∧
          (A.cols k).count (k : Int) ≤ 1))
        (by omega) (by omega) (by omega)
        (by
          refine ⟨⟨by simp, by simp, ?_, by simp, hK⟩, by simp, by simp⟩
          simp [rowRank])
        (by
          intro pre x suf s hsplit hinv
          obtain ⟨hinv, hin, hcnt⟩ := hinv
          have hcols : A.cols k = (pre.map (· - A.base)) ++ (x - A.base) ::
              suf.map (· - A.base) := by
            rw [cols_eq_seg A hv, seg]
            have : (A.p (k + 1) - A.base - (A.p k - A.base)).toNat
              = (A.p (k + 1) - A.p k).toNat := by omega
            rw [this] at hsplit
            rw [hsplit]; simp
          have hj0 : 0 ≤ jminOf shape k := by unfold jminOf; split_ifs <;> omega
          rcases scanStep_spec (base := A.base) (jmax := jmaxOf shape A.n k) (c := x) hj0 hinv with
            ⟨s', e1, e2, e3, e4, e5⟩ | ⟨e, e1, e2⟩
          · left
            refine ⟨s', e1, by simpa using e2, ?_, ?_⟩
            · intro j hj
              simp only [List.map_append, List.map_cons, List.map_nil, List.mem_append,
                List.mem_singleton] at hj
              rcases hj with hj | hj
              · exact hin j hj
              · rw [hj]; exact ⟨e3, e4⟩
            · simp only [List.map_append, List.map_cons, List.map_nil, List.count_append,
                List.count_singleton]
              by_cases hx : x - A.base = k
              · have : (k : Int) ∉ pre.map (· - A.base) := fun h => e5 ⟨h, hx⟩
                rw [List.count_eq_zero_of_not_mem this]
                split_ifs <;> omega
              · have : ¬ ((x - A.base) == (k : Int)) = true := by simpa using hx
                rw [if_neg this]; omega
          · right
            refine ⟨e, e1, ?_, ?_⟩
            · rcases e2 with ⟨h, _⟩ | ⟨h, _⟩
              · exact .inr h
              · exact .inl h
            rw [hcols]
            rintro ⟨ha, hb⟩
            rcases e2 with ⟨_, h⟩ | ⟨_, h2, h3⟩
            · exact h (ha (x - A.base) (by simp))
            · rw [h3, List.count_append, List.count_cons_self] at hb
              have := List.count_pos_iff.2 h2
              omega)
      simp only [Option.bind_eq_bind] at inner
      have hseg : ((A.ind.drop (A.p k - A.base).toNat).take
          (A.p (k + 1) - A.base - (A.p k - A.base)).toNat).map (· - A.base) = A.cols k := by
        rw [cols_eq_seg A hv, seg]
        congr 3
        omega
      rcases inner with ⟨s', h1, h2, h3, h4⟩ | ⟨e, h1, h2⟩
      · left
        rw [hseg] at h2 h3 h4
        unfold jminOf jmaxOf at h1
        rw [h1]
        refine ⟨_, rfl, ?_, ?_, h2.known, ?_⟩
        · intro k' hk'
          by_cases hkk : k' = k
          · subst hkk; exact ⟨h3, h4⟩
          · exact hA k' (by omega)
        · show sortRank s'.sort = _
          rw [h2.rank, hB]
          have : (((k + 1 : Nat) : Int)).toNat = k + 1 := by omega
          rw [this]
          rfl
        · show (if s'.diagonal = false ∧ (k : Int) < (A.n : Int) then false else st.2) = true ↔ _
          constructor
          · intro h k' hk' hkn
            split_ifs at h with hc
            by_cases hkk : k' = k
            · subst hkk
              apply h2.diag.1
              by_contra hd
              exact hc ⟨by simpa using hd, by omega⟩
            · exact hC.1 h k' (by omega) hkn
          · intro h
            have hst : st.2 = true := hC.2 (fun k' hk' hkn => h k' (by omega) hkn)
            rw [if_neg, hst]
            rintro ⟨hd, hkn⟩
            have := h2.diag.2 (h k (by omega) (by omega))
            rw [this] at hd
            exact absurd hd (by simp)
      · right
        unfold jminOf jmaxOf at h1
        rw [h1]
        exact ⟨e, rfl, h2.1, k, hk, h2.2⟩)
  simp only [Option.bind_eq_bind] at hmain
  rcases hmain with ⟨st, hok2, hA, hB, hK, hC⟩ | ⟨e, herr, hbad, k, hk, hnk⟩
  · left
    refine ⟨st.1, st.2, hok2, ⟨by omega, by omega, hm', ?_, ?_⟩, ?_, ?_⟩
    · intro i hi; exact (hA i (by omega)).1
    · intro i hi; exact (hA i (by omega)).2
    · simpa using hB
    · rw [hC]
      constructor
      · intro h i hi hn; exact h i (by omega) hn
      · intro h k hk hn; exact h k (by omega) hn
  · right
    exact ⟨e, herr, fun h => hnk ⟨h.idx k hk, h.diag k hk⟩, hbad⟩

end Verif
