/-
The clean copy: checks and diagonal indices.
-/
import Verif.Core.Scan
import Verif.Model.CsrOpt
import Verif.Spec.MatCheck
import Verif.Spec.Clean
import Verif.Proofs.MatCheck
import Verif.Proofs.MkCsr

namespace Verif
open Model

variable {R : Type}

/-! ### rows split at the diagonal -/

/-- strictly lower entries of a row -/
def loPart (i : Nat) (S : List (Int × R)) : List (Int × R) := S.filter fun e => decide (e.1 < (i : Int))
/-- diagonal entries of a row -/
def dgPart (i : Nat) (S : List (Int × R)) : List (Int × R) := S.filter fun e => decide (e.1 = (i : Int))
/-- strictly upper entries of a row -/
def upPart (i : Nat) (S : List (Int × R)) : List (Int × R) := S.filter fun e => decide ((i : Int) < e.1)

theorem mem_loPart {i : Nat} {S : List (Int × R)} {e : Int × R} :
    e ∈ loPart i S ↔ e ∈ S ∧ e.1 < i := by simp [loPart]
theorem mem_dgPart {i : Nat} {S : List (Int × R)} {e : Int × R} :
    e ∈ dgPart i S ↔ e ∈ S ∧ e.1 = i := by simp [dgPart]
theorem mem_upPart {i : Nat} {S : List (Int × R)} {e : Int × R} :
    e ∈ upPart i S ↔ e ∈ S ∧ (i : Int) < e.1 := by simp [upPart]

/-- a grouped row -/
def GroupedRow (i : Nat) (S : List (Int × R)) : Prop :=
  (S.map (·.1)).Pairwise (fun a b => Csr.grp i a ≤ Csr.grp i b)

theorem grouped_split {i : Nat} {S : List (Int × R)} (h : GroupedRow i S) :
    S = loPart i S ++ dgPart i S ++ upPart i S := by
  induction S with
  | nil => rfl
  | cons e S ih =>
    simp only [GroupedRow, List.map_cons, List.pairwise_cons] at h
    obtain ⟨h1, h2⟩ := h
    have ih := ih h2
    rcases lt_trichotomy e.1 (i : Int) with hlt | heq | hgt
    · have a1 : loPart i (e :: S) = e :: loPart i S := by simp [loPart, hlt]
      have a2 : dgPart i (e :: S) = dgPart i S := by
        unfold dgPart; rw [List.filter_cons_of_neg (by simp; omega)]
      have a3 : upPart i (e :: S) = upPart i S := by
        unfold upPart; rw [List.filter_cons_of_neg (by simp; omega)]
      rw [a1, a2, a3]
      simp only [List.cons_append]
      rw [← ih]
    · have a0 : ∀ x ∈ S, ¬ x.1 < (i : Int) := by
        intro x hx hlt
        have := h1 x.1 (List.mem_map_of_mem hx)
        simp [Csr.grp, heq, hlt] at this
      have a1 : loPart i (e :: S) = [] := by
        simp only [loPart, List.filter_eq_nil_iff, List.mem_cons, decide_eq_true_eq]
        rintro x (rfl | hx)
        · omega
        · exact a0 x hx
      have a1' : loPart i S = [] := by
        simp only [loPart, List.filter_eq_nil_iff, decide_eq_true_eq]
        exact a0
      have a2 : dgPart i (e :: S) = e :: dgPart i S := by simp [dgPart, heq]
      have a3 : upPart i (e :: S) = upPart i S := by
        unfold upPart; rw [List.filter_cons_of_neg (by simp; omega)]
      rw [a1, a2, a3]
      rw [a1'] at ih
      simp only [List.nil_append, List.cons_append] at ih ⊢
      rw [← ih]
    · have a0 : ∀ x ∈ S, (i : Int) < x.1 := by
        intro x hx
        have := h1 x.1 (List.mem_map_of_mem hx)
        simp only [Csr.grp] at this
        by_contra hc
        rw [if_neg (by omega), if_neg (by omega)] at this
        split_ifs at this <;> omega
      have a1 : loPart i (e :: S) = [] := by
        simp only [loPart, List.filter_eq_nil_iff, List.mem_cons, decide_eq_true_eq]
        rintro x (rfl | hx)
        · omega
        · have := a0 x hx; omega
      have a2 : dgPart i (e :: S) = [] := by
        simp only [dgPart, List.filter_eq_nil_iff, List.mem_cons, decide_eq_true_eq]
        rintro x (rfl | hx)
        · omega
        · have := a0 x hx; omega
      have a3 : upPart i (e :: S) = e :: S := by
        simp only [upPart, List.filter_eq_self, List.mem_cons, decide_eq_true_eq]
        rintro x (rfl | hx)
        · omega
        · exact a0 x hx
      rw [a1, a2, a3]
      rfl

theorem dgPart_length {i : Nat} {S : List (Int × R)} :
    (dgPart i S).length = (S.map (·.1)).count (i : Int) := by
  unfold dgPart
  induction S with
  | nil => rfl
  | cons e S ih =>
    rw [List.filter_cons, List.map_cons, List.count_cons]
    by_cases h : e.1 = (i : Int)
    · simp [h, ih]
    · have : ¬ ((e.1 == (i : Int)) = true) := by simpa using h
      simp [h, ih]

theorem sorted_grouped {i : Nat} {S : List (Int × R)} (h : (S.map (·.1)).Pairwise (· ≤ ·)) :
    GroupedRow i S := h.imp (fun h => grp_le_of_le h)

theorem grouped_iff (A : Csr R) : A.Grouped ↔ ∀ i, i < A.m → GroupedRow i (A.row i) := Iff.rfl

/-! ### check_sort_diag -/

theorem sortDiag_row {base : Int} {i : Nat} {S : List (Int × R)} {k : Int} {fd : Bool}
    (h1 : (S.map (·.1)).count (i : Int) ≤ 1) :
    (∃ s, scanE (fun _ j s => sortDiagStep base i (j + base) s) k S ⟨true, fd, true, false⟩ = .ok s ∧
      s.sorted = true ∧ s.fulldiag = fd ∧ (s.found = true ↔ (i : Int) ∈ S.map (·.1)) ∧
      GroupedRow i S) ∨
    (scanE (fun _ j s => sortDiagStep base i (j + base) s) k S ⟨true, fd, true, false⟩
      = .error (.success, false, false) ∧ ¬ GroupedRow i S) := by
  have := scanE_inv (f := fun _ j s => sortDiagStep base i (j + base) s) (k := k) (S := S)
    (s := ⟨true, fd, true, false⟩)
    (P := fun pre s => s.sorted = true ∧ s.fulldiag = fd ∧
      (s.found = true ↔ (i : Int) ∈ pre.map (·.1)) ∧ GroupedRow i pre ∧
      (s.lower = true ↔ ∀ e ∈ pre, e.1 < (i : Int)))
    (Q := fun e => e = (.success, false, false) ∧ ¬ GroupedRow i S)
    ⟨rfl, rfl, by simp, by simp [GroupedRow], by simp⟩ ?_
  · rcases this with ⟨s, a, b, c, d, e, _⟩ | ⟨e, a, rfl, b⟩
    · exact .inl ⟨s, a, b, c, d, e⟩
    · exact .inr ⟨a, b⟩
  · rintro pre x suf ⟨so, fu, lo, fo⟩ hS ⟨p1, p2, p3, p4, p5⟩
    simp only at p1 p2 p3 p5
    subst p1 p2
    -- a later element breaks the grouping of the whole row
    have hbad : ¬ GroupedRow i (pre ++ [x]) → ¬ GroupedRow i S := by
      intro hn hg
      apply hn
      unfold GroupedRow at hg ⊢
      rw [hS, show pre ++ x :: suf = (pre ++ [x]) ++ suf by simp, List.map_append,
        List.pairwise_append] at hg
      exact hg.1
    have hsnoc : GroupedRow i (pre ++ [x]) ↔ ∀ e ∈ pre, Csr.grp i e.1 ≤ Csr.grp i x.1 := by
      unfold GroupedRow at p4 ⊢
      rw [List.map_append, List.pairwise_append]
      simp [p4]
    have hfo : x.1 = (i : Int) → fo = false := by
      intro hx
      by_contra hf
      have hm := p3.mp (by simpa using hf)
      rw [hS, List.map_append, List.count_append] at h1
      have c1 : 0 < (pre.map (·.1)).count (i : Int) := List.count_pos_iff.mpr hm
      have c2 : 0 < ((x :: suf).map (·.1)).count (i : Int) :=
        List.count_pos_iff.mpr (by simp [hx])
      omega
    unfold sortDiagStep
    simp only [add_sub_cancel_right]
    by_cases hx : x.1 = (i : Int)
    · rw [if_neg (by rw [hfo hx]; simp)]
      simp only [hx, if_true]
      cases hlo : lo
      · right
        refine ⟨_, by simp, rfl, hbad ?_⟩
        rw [hsnoc]
        intro hg
        have : ¬ ∀ e ∈ pre, e.1 < (i : Int) := fun h => by
          have := p5.mpr h
          rw [hlo] at this; simp at this
        apply this
        intro e he
        have h2 := hg e he
        have h3 : e.1 ≠ (i : Int) := by
          intro h
          have := p3.mpr (List.mem_map.mpr ⟨e, he, h⟩)
          rw [hfo hx] at this; simp at this
        simp only [Csr.grp, hx] at h2
        split_ifs at h2 <;> omega
      · left
        refine ⟨_, by simp; rfl, rfl, rfl, by simp [hx], ?_, ?_⟩
        swap
        · simp only [Bool.false_eq_true, false_iff]
          intro h
          have := h x (by simp)
          omega
        rw [hsnoc]
        intro e he
        have := p5.mp hlo e he
        simp only [Csr.grp]
        rw [if_pos this]
        omega
    · rw [if_neg (by simp [hx])]
      simp only [hx, if_false]
      cases hlo : lo
      · -- past the lower part
        have hn : ¬ ∀ e ∈ pre, e.1 < (i : Int) := fun h => by
          have := p5.mpr h
          rw [hlo] at this; simp at this
        by_cases hgt : x.1 > (i : Int)
        · left
          refine ⟨_, by simp [hgt]; rfl, rfl, rfl, ?_, ?_, ?_⟩
          · simp only [List.map_append, List.mem_append, List.map_cons, List.map_nil,
              List.mem_singleton, p3]
            constructor
            · intro h; exact .inl h
            · rintro (h | h)
              · exact h
              · exact absurd h.symm hx
          · rw [hsnoc]
            intro e _
            have : Csr.grp i x.1 = 2 := by
              simp only [Csr.grp]; rw [if_neg (by omega), if_neg hx]
            rw [this]
            simp only [Csr.grp]; split_ifs <;> omega
          · simp only [Bool.false_eq_true, false_iff]
            intro h
            exact hn fun e he => h e (by simp [he])
        · right
          refine ⟨_, by simp; omega, rfl, hbad ?_⟩
          rw [hsnoc]
          intro hg
          apply hn
          intro e he
          have := hg e he
          simp only [Csr.grp] at this
          rw [if_pos (show x.1 < (i : Int) by omega)] at this
          split_ifs at this <;> omega
      · left
        have hall := p5.mp hlo
        refine ⟨_, by simp; rfl, rfl, rfl, ?_, ?_, ?_⟩
        · simp only [List.map_append, List.mem_append, List.map_cons, List.map_nil,
            List.mem_singleton, p3]
          constructor
          · intro h; exact .inl h
          · rintro (h | h)
            · exact h
            · exact absurd h.symm hx
        · rw [hsnoc]
          intro e he
          have := hall e he
          simp only [Csr.grp]
          rw [if_pos this]
          omega
        · simp only [decide_eq_true_eq, List.mem_append, List.mem_singleton]
          constructor
          · rintro h e (he | rfl)
            · exact hall e he
            · exact h
          · intro h; exact h x (.inr rfl)

theorem checkSortDiag_spec {A : Csr R} (hA : A.WF) (hd : A.OneDiag) :
    checkSortDiag A.m A.n A.base (some A.ptr) (some A.ind)
      = some (.success, decide A.Grouped, decide (A.Grouped ∧ A.FullDiag)) := by
  unfold checkSortDiag
  rw [if_neg (by omega)]
  simp only [Option.bind_eq_bind]
  have key := forE_inv (lo := 0) (hi := (A.m : Int)) (s := (true, true))
    (f := sortDiagRow A.n A.base A.ptr A.ind)
    (P := fun i st => st.1 = true ∧ (∀ k : Nat, (k : Int) < i → GroupedRow k (A.row k)) ∧
      (st.2 = true ↔ ∀ k : Nat, (k : Int) < i → k < A.n → (k : Int) ∈ A.cols k))
    (Q := fun e => e = (.success, false, false) ∧ ¬ A.Grouped) (by omega)
    ⟨rfl, by intro k hk; omega, by simp⟩ (by
      rintro i ⟨so, fu⟩ hi0 hi1 ⟨p1, p2, p3⟩
      simp only at p1 p3
      subst p1
      obtain ⟨k, rfl⟩ : ∃ k : Nat, i = (k : Int) := ⟨i.toNat, by omega⟩
      have e1 := Csr.WF.rd_ptr hA (i := k) (by omega)
      have e2 := Csr.WF.rd_ptr hA (i := k + 1) (by omega)
      rw [show ((k + 1 : Nat) : Int) = (k : Int) + 1 by push_cast; rfl] at e2
      have hseg := A.seg_row hA (i := k) (by omega)
      have hf := hseg.forE (σ := SortDiag) (fun _ c s => sortDiagStep A.base k c s)
        ⟨true, fu, true, false⟩
      simp only [Option.bind_eq_bind] at hf
      unfold sortDiagRow
      simp only [e1, e2, Option.bind_eq_bind, Option.bind_some, hf]
      rcases sortDiag_row (base := A.base) (i := k) (S := A.row k) (k := A.p k - A.base) (fd := fu)
        (hd k (by omega)) with ⟨s, a1, a2, a3, a4, a5⟩ | ⟨a1, a2⟩
      · left
        simp only [a1, a2, sortDiagEnd]
        refine ⟨_, rfl, rfl, ?_, ?_⟩
        · intro q hq
          by_cases hqk : q = k
          · subst hqk; exact a5
          · exact p2 q (by omega)
        · have a4' : s.found = true ↔ (k : Int) ∈ A.cols k := a4
          by_cases hc : s.found = false ∧ (k : Int) < A.n
          · rw [if_pos hc]
            simp only [Bool.false_eq_true, false_iff]
            intro h
            have := a4'.mpr (h k (by omega) (by omega))
            rw [hc.1] at this; simp at this
          · rw [if_neg hc, a3, p3]
            constructor
            · intro h q hq hn
              by_cases hqk : q = k
              · subst hqk
                apply a4'.mp
                by_contra hf
                exact hc ⟨by simpa using hf, by omega⟩
              · exact h q (by omega) hn
            · intro h q hq; exact h q (by omega)
      · right
        simp only [a1, sortDiagEnd]
        exact ⟨_, rfl, rfl, fun hg => a2 (hg k (by omega))⟩)
  rcases key with ⟨s, h1, h2, h3, h4⟩ | ⟨e, h1, rfl, h2⟩
  · rw [h1]
    simp only [Option.bind_some]
    have hg : A.Grouped := fun k hk => h3 k (by omega)
    have hfd : s.2 = true ↔ A.FullDiag := by
      rw [h4]
      unfold Csr.FullDiag
      constructor
      · intro h i hi hn; exact h i (by omega) hn
      · intro h i hi hn; exact h i (by omega) hn
    simp only [h2, hg, true_and, decide_true]
    congr 3
    by_cases hf : A.FullDiag
    · simp [hf, hfd.mpr hf]
    · have : s.2 = false := by
        by_contra hc
        exact hf (hfd.mp (by simpa using hc))
      simp [hf, this]
  · rw [h1]
    simp [h2]

/-! ### csr_csc_indices -/

theorem csrIndices_spec {A : Csr R} (hA : A.WF) (hg : A.Grouped) (hd : A.OneDiag)
    (gi : Nat → Int) :
    ∃ idiag iurow, csrIndices gi A.m A.base A.ptr A.ind = some (idiag, iurow) ∧
      idiag.length = A.m ∧ iurow.length = A.m ∧
      ∀ i, i < A.m →
        rd idiag i = some (A.p i + (loPart i (A.row i)).length) ∧
        rd iurow i = some (A.p i + (loPart i (A.row i)).length + (dgPart i (A.row i)).length) := by
  unfold csrIndices
  obtain ⟨s, h1, h2, h3⟩ := forC_inv_nat (n := A.m)
    (s := (alloc (A.m : Int).toNat gi, alloc (A.m : Int).toNat gi))
    (f := indicesRow A.base A.ptr A.ind)
    (P := fun i s =>
      Pre s.1 A.m ((List.range i).map fun k => A.p k + ((loPart k (A.row k)).length : Int)) ∧
      Pre s.2 A.m ((List.range i).map fun k => A.p k + ((loPart k (A.row k)).length : Int)
        + ((dgPart k (A.row k)).length : Int)))
    ⟨by simpa using alloc_pre A.m gi, by simpa using alloc_pre A.m gi⟩ (by
      rintro i ⟨d, u⟩ hi ⟨p1, p2⟩
      have e1 := Csr.WF.rd_ptr hA (i := i) (by omega)
      have e2 := Csr.WF.rd_ptr hA (i := i + 1) (by omega)
      rw [show ((i + 1 : Nat) : Int) = (i : Int) + 1 by push_cast; rfl] at e2
      have hseg := A.seg_row hA (i := i) hi
      have hf := hseg.forE (σ := Unit) (ε := Int × Bool) (fun idx c _ =>
        if c - A.base ≥ i then .error (idx, decide (c - A.base = i)) else .ok ()) ()
      have hfind : findGe A.base i A.ind (A.p i - A.base) (A.p (i + 1) - A.base)
          = some (scanE (fun idx j _ => if j ≥ (i : Int) then
              .error (idx, decide (j = (i : Int))) else .ok ()) (A.p i - A.base) (A.row i) ()) := by
        unfold findGe
        rw [hf]
        simp only [add_sub_cancel_right]
      have hlen := Csr.row_length hA hi
      have hsp := grouped_split (hg i hi)
      have hskip : scanE (fun idx j (_ : Unit) => if j ≥ (i : Int) then
          (.error (idx, decide (j = (i : Int))) : Except (Int × Bool) Unit) else .ok ())
          (A.p i - A.base) (loPart i (A.row i)) () = .ok () := by
        apply scanE_skip
        intro e he idx
        have := (mem_loPart.mp he).2
        rw [if_neg (by omega)]
      have hcount : (dgPart i (A.row i)).length ≤ 1 := by
        rw [dgPart_length]; exact hd i hi
      unfold indicesRow
      simp only [e1, e2, Option.bind_eq_bind, Option.bind_some, hfind]
      have hval : ∃ v, scanE (fun idx j (_ : Unit) => if j ≥ (i : Int) then
            (.error (idx, decide (j = (i : Int))) : Except (Int × Bool) Unit) else .ok ())
            (A.p i - A.base) (A.row i) () = v ∧
          ((v = .ok () ∧ A.p (i + 1) = A.p i + (loPart i (A.row i)).length ∧
              (dgPart i (A.row i)).length = 0) ∨
            (v = .error (A.p i - A.base + (loPart i (A.row i)).length, true) ∧
              (dgPart i (A.row i)).length = 1) ∨
            (v = .error (A.p i - A.base + (loPart i (A.row i)).length, false) ∧
              (dgPart i (A.row i)).length = 0)) := by
        refine ⟨_, rfl, ?_⟩
        have hl : (A.row i).length = (loPart i (A.row i)).length + (dgPart i (A.row i)).length
            + (upPart i (A.row i)).length := by
          conv_lhs => rw [hsp]
          simp [Nat.add_assoc]
        have happ := scanE_append (fun idx j (_ : Unit) => if j ≥ (i : Int) then
            (.error (idx, decide (j = (i : Int))) : Except (Int × Bool) Unit) else .ok ())
            (A.p i - A.base) (loPart i (A.row i)) (dgPart i (A.row i) ++ upPart i (A.row i)) ()
        rw [hskip, ← List.append_assoc, ← hsp] at happ
        rw [happ]
        simp only
        match hD : dgPart i (A.row i), hU : upPart i (A.row i) with
        | [], [] =>
          left
          rw [hD, hU] at hl
          simp at hl
          exact ⟨rfl, by omega, rfl⟩
        | [], u :: U =>
          right; right
          have : (i : Int) < u.1 := (mem_upPart.mp (by rw [hU]; simp)).2
          simp only [List.nil_append, scanE]
          rw [if_pos (by omega), decide_eq_false (by omega)]
          exact ⟨rfl, rfl⟩
        | e :: D, U =>
          right; left
          have : e.1 = (i : Int) := (mem_dgPart.mp (by rw [hD]; simp)).2
          simp only [List.cons_append, scanE]
          rw [if_pos (by omega), decide_eq_true this]
          rw [hD] at hcount
          simp at hcount
          exact ⟨rfl, by simp [hcount]⟩
      obtain ⟨v, hv, hcase⟩ := hval
      rw [hv]
      rcases hcase with ⟨rfl, c1, c2⟩ | ⟨rfl, c2⟩ | ⟨rfl, c2⟩
      · obtain ⟨d', q1, q2⟩ := p1.wr (A.p i + ((loPart i (A.row i)).length : Int)) (k := i) (by simp)
          (by simpa using hi)
        obtain ⟨u', r1, r2⟩ := p2.wr (A.p i + ((loPart i (A.row i)).length : Int)
          + ((dgPart i (A.row i)).length : Int)) (k := i) (by simp) (by simpa using hi)
        refine ⟨(d', u'), ?_, ?_, ?_⟩
        · simp only
          rw [show A.p (i + 1) - A.base + A.base = A.p i + ((loPart i (A.row i)).length : Int) by
            omega, q1]
          rw [c2] at r1
          simp only [Nat.cast_zero, add_zero] at r1
          simp only [Option.bind_some, r1]
        · rw [List.range_succ]; simpa using q2
        · rw [List.range_succ]; simpa using r2
      · obtain ⟨d', q1, q2⟩ := p1.wr (A.p i + ((loPart i (A.row i)).length : Int)) (k := i) (by simp)
          (by simpa using hi)
        obtain ⟨u', r1, r2⟩ := p2.wr (A.p i + ((loPart i (A.row i)).length : Int)
          + ((dgPart i (A.row i)).length : Int)) (k := i) (by simp) (by simpa using hi)
        refine ⟨(d', u'), ?_, ?_, ?_⟩
        · simp only [if_true]
          rw [show A.p i - A.base + ((loPart i (A.row i)).length : Int) + A.base
            = A.p i + ((loPart i (A.row i)).length : Int) by ring, q1]
          rw [c2] at r1
          simp only [Nat.cast_one] at r1
          simp only [Option.bind_some, r1]
        · rw [List.range_succ]; simpa using q2
        · rw [List.range_succ]; simpa using r2
      · obtain ⟨d', q1, q2⟩ := p1.wr (A.p i + ((loPart i (A.row i)).length : Int)) (k := i) (by simp)
          (by simpa using hi)
        obtain ⟨u', r1, r2⟩ := p2.wr (A.p i + ((loPart i (A.row i)).length : Int)
          + ((dgPart i (A.row i)).length : Int)) (k := i) (by simp) (by simpa using hi)
        refine ⟨(d', u'), ?_, ?_, ?_⟩
        · simp only [Bool.false_eq_true, if_false]
          rw [show A.p i - A.base + ((loPart i (A.row i)).length : Int) + A.base
            = A.p i + ((loPart i (A.row i)).length : Int) by ring, q1]
          rw [c2] at r1
          simp only [Nat.cast_zero, add_zero] at r1
          simp only [Option.bind_some, r1]
        · rw [List.range_succ]; simpa using q2
        · rw [List.range_succ]; simpa using r2)
  refine ⟨s.1, s.2, h1, h2.1, h3.1, ?_⟩
  intro i hi
  constructor
  · rw [h2.rd (i := i) (by simpa using hi)]; simp
  · rw [h3.rd (i := i) (by simpa using hi)]; simp

/-- the indices turn a grouped matrix with a full diagonal into a clean one -/
theorem clean_of_indices {A : Csr R} (hg : A.Grouped) (hd : A.OneDiag) (hf : A.FullDiag)
    {idiag iurow : List Int}
    (h : ∀ i, i < A.m →
        rd idiag i = some (A.p i + (loPart i (A.row i)).length) ∧
        rd iurow i = some (A.p i + (loPart i (A.row i)).length + (dgPart i (A.row i)).length)) :
    Clean A idiag iurow := by
  intro i hi
  refine ⟨loPart i (A.row i), dgPart i (A.row i), upPart i (A.row i), grouped_split (hg i hi),
    fun e he => (mem_loPart.mp he).2, fun e he => (mem_dgPart.mp he).2,
    fun e he => (mem_upPart.mp he).2, (h i hi).1, (h i hi).2, ?_⟩
  intro hn
  rw [dgPart_length]
  have h1 := hd i hi
  have h2 : 0 < (A.cols i).count (i : Int) := List.count_pos_iff.mpr (hf i hi hn)
  unfold Csr.cols at h1 h2
  omega

end Verif
