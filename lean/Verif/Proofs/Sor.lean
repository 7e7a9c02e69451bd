/-
Successive over-relaxation: the check of the diagonal and the sweep.
-/
import Verif.Spec.Smooth
import Verif.Model.Symgs
import Verif.Proofs.MvLemmas
import Verif.Proofs.Level1
import Verif.Spec.MatCheck
import Mathlib.Tactic.FieldSimp

namespace Verif
open Model Finset

variable {R : Type} [Field R] [DecidableEq R]

/-- the row stores its diagonal entry exactly once and it is not zero -/
def Csr.SorRow (A : Csr R) (i : Nat) : Prop :=
  ∃ v, v ≠ 0 ∧ (A.row i).filter (fun e => decide (e.1 = (i : Int))) = [((i : Int), v)]

section
variable {A : Csr R}

omit [Field R] [DecidableEq R] in
theorem filter_fst {L : List (Int × R)} {i : Int} {e : Int × R}
    (h : e ∈ L.filter (fun e => decide (e.1 = i))) : e.1 = i := by
  simpa using (List.mem_filter.1 h).2

theorem sorDiagRow_spec (hA : A.WF) {i : Nat} (hi : i < A.m) :
    (∃ b, sorDiagRow A.base A.ind A.val i (A.p i) (A.p (i + 1)) = some (.ok b) ∧
      (b = true ↔ A.SorRow i)) ∨
    (sorDiagRow A.base A.ind A.val i (A.p i) (A.p (i + 1)) = some (.error false) ∧ ¬ A.SorRow i) := by
  have hmono := hA.mono (i := i) (j := i + 1) (by omega) (by omega)
  have hlen := Csr.row_length hA hi
  set F : List (Int × R) → List (Int × R) := fun L => L.filter (fun e => decide (e.1 = (i : Int))) with hF
  have hFa : ∀ L e, F (L ++ [e]) = F L ++ if e.1 = (i : Int) then [e] else [] := by
    intro L e
    simp only [hF, List.filter_append]
    congr 1
    by_cases h : e.1 = (i : Int) <;> simp [List.filter_cons, h]
  have hpre : ∀ k, ∃ T, F (A.row i) = F ((A.row i).take k) ++ T := by
    intro k
    refine ⟨F ((A.row i).drop k), ?_⟩
    simp only [hF]
    rw [← List.filter_append, List.take_append_drop]
  rcases forE_inv (lo := A.p i) (hi := A.p (i + 1)) (s := false) (f := fun j full => do
      let c ← rd A.ind (j - A.base)
      if (i : Int) = c - A.base then
        if full then some (.error false)
        else do
          let v ← rd A.val (j - A.base)
          if v ≠ 0 then some (.ok true) else some (.error full)
      else some (.ok full))
    (fun j full => (full = false → F ((A.row i).take (j - A.p i).toNat) = []) ∧
      (full = true → ∃ v, v ≠ 0 ∧ F ((A.row i).take (j - A.p i).toNat) = [((i : Int), v)]))
    (fun e : Bool => e = false ∧ ¬ A.SorRow i) hmono
    (by simp [hF]) (by
      rintro j full h1 h2 ⟨p1, p2⟩
      obtain ⟨t, rfl⟩ : ∃ t : Nat, j = A.p i + t := ⟨(j - A.p i).toNat, by omega⟩
      have et : (A.p i + (t : Int) - A.p i).toNat = t := by omega
      have et' : (A.p i + (t : Int) + 1 - A.p i).toNat = t + 1 := by omega
      rw [et] at p1 p2
      rw [et']
      obtain ⟨c, v, e1, e2, e3⟩ := Csr.row_getElem? hA hi (t := t) (by omega)
      have hj : A.p i + (t : Int) - A.base = A.p i - A.base + t := by ring
      have htk : (A.row i).take (t + 1) = (A.row i).take t ++ [(c - A.base, v)] := by
        rw [List.take_add_one, e3]; rfl
      have hft : F ((A.row i).take (t + 1))
          = F ((A.row i).take t) ++ if c - A.base = (i : Int) then [(c - A.base, v)] else [] := by
        rw [htk, hFa]
      simp only [hj, e1, e2, Option.bind_eq_bind, Option.bind_some]
      by_cases hc : (i : Int) = c - A.base
      · rw [if_pos hc.symm] at hft
        obtain ⟨T, hT⟩ := hpre (t + 1)
        rw [if_pos hc]
        cases full with
        | true =>
          obtain ⟨u, -, hu⟩ := p2 rfl
          refine .inr ⟨false, by simp, rfl, ?_⟩
          rintro ⟨z, -, hz⟩
          rw [hft, hu] at hT
          have : F (A.row i) = [((i : Int), z)] := hz
          rw [hT] at this
          simp at this
        | false =>
          rw [p1 rfl] at hft
          simp only [Bool.false_eq_true, if_false]
          by_cases hv : v = 0
          · refine .inr ⟨false, by simp [hv], rfl, ?_⟩
            rintro ⟨z, hz0, hz⟩
            rw [hft] at hT
            have : F (A.row i) = [((i : Int), z)] := hz
            rw [hT] at this
            simp at this
            exact hz0 (by rw [← this.1.2, hv])
          · refine .inl ⟨true, by simp [hv], by simp, fun _ => ⟨v, hv, ?_⟩⟩
            rw [hft, hc]; rfl
      · rw [if_neg (fun h => hc h.symm), List.append_nil] at hft
        rw [if_neg hc]
        refine .inl ⟨full, rfl, ?_⟩
        rw [hft]
        exact ⟨p1, p2⟩) with ⟨b, e, p1, p2⟩ | ⟨b, e, rfl, hb⟩
  · left
    have hall : (A.row i).take (A.p (i + 1) - A.p i).toNat = A.row i :=
      List.take_of_length_le (by omega)
    rw [hall] at p1 p2
    refine ⟨b, e, ?_⟩
    cases b with
    | true => exact ⟨fun _ => p2 rfl, fun _ => rfl⟩
    | false =>
      refine ⟨by simp, ?_⟩
      rintro ⟨z, -, hz⟩
      have : F (A.row i) = [((i : Int), z)] := hz
      rw [p1 rfl] at this
      cases this
  · right
    exact ⟨e, hb⟩

theorem sorDiagStep_spec (hA : A.WF) {i : Nat} (hi : i < A.m) (s : Bool) :
    (A.SorRow i → sorDiagStep A.base A.ptr A.ind A.val i s = some (.ok true)) ∧
    (¬ A.SorRow i → sorDiagStep A.base A.ptr A.ind A.val i s = some (.error false)) := by
  have e1 := hA.rd_ptr (i := i) (by omega)
  have e2 : rd A.ptr ((i : Int) + 1) = some (A.p (i + 1)) := by
    have := hA.rd_ptr (i := i + 1) (by omega)
    push_cast at this
    exact this
  unfold sorDiagStep
  simp only [e1, e2, Option.bind_eq_bind, Option.bind_some]
  rcases sorDiagRow_spec hA hi with ⟨b, e, hb⟩ | ⟨e, hb⟩
  · simp only [e, Option.bind_some]
    by_cases h : A.SorRow i
    · rw [hb.2 h]; simp [h]
    · have : b = false := by
        cases b
        · rfl
        · exact absurd (hb.1 rfl) h
      rw [this]; simp [h]
  · simp only [e, Option.bind_some]
    simp [hb]

theorem sorCheck_spec (hA : A.WF) (hm : 0 < A.m) :
    ∃ b, sorCheck A.m A.base A.ptr A.ind A.val = some b ∧ (b = true ↔ ∀ i, i < A.m → A.SorRow i) := by
  classical
  by_cases hall : ∀ i, i < A.m → A.SorRow i
  · obtain ⟨s, e, p⟩ := forE_ok (n := A.m) (s := false) (f := sorDiagStep A.base A.ptr A.ind A.val)
      (fun i s => 0 < i → s = true) (by omega)
      (fun i s hi _ => ⟨true, (sorDiagStep_spec hA hi s).1 (hall i hi), fun _ => rfl⟩)
    refine ⟨true, ?_, by simpa using hall⟩
    unfold sorCheck
    simp only [e, Option.bind_eq_bind, Option.bind_some]
    rw [p hm]
  · have hex : ∃ i, i < A.m ∧ ¬ A.SorRow i := by
      by_contra hc
      apply hall
      intro i hi
      by_contra h
      exact hc ⟨i, hi, h⟩
    obtain ⟨k1, k2⟩ := Nat.find_spec hex
    have hmin : ∀ i, i < Nat.find hex → A.SorRow i := by
      intro i hi
      by_contra h
      exact Nat.find_min hex hi ⟨by omega, h⟩
    obtain ⟨e, he, hq⟩ := forE_stop (n := A.m) (s := false) k1 (f := sorDiagStep A.base A.ptr A.ind A.val)
      (fun _ _ => True) (fun e : Bool => e = false) trivial
      (fun i s hi _ => ⟨true, (sorDiagStep_spec hA (by omega) s).1 (hmin i hi), trivial⟩)
      (fun s _ => ⟨false, (sorDiagStep_spec hA k1 s).2 k2, rfl⟩)
    refine ⟨false, ?_, by simpa using hall⟩
    unfold sorCheck
    simp only [he, Option.bind_eq_bind, Option.bind_some, hq]

omit [DecidableEq R] in
/-- such a row has its diagonal -/
theorem Csr.SorRow.mat {i : Nat} (h : A.SorRow i) : A.mat i i ≠ 0 ∧
    (i : Int) ∈ A.cols i ∧ (A.cols i).count (i : Int) = 1 := by
  obtain ⟨v, hv, e⟩ := h
  have h1 : A.mat i i = v := by
    unfold Csr.mat Csr.entry
    rw [e]; simp
  have h2 : (A.cols i).count (i : Int) = 1 := by
    have : (A.cols i).count (i : Int) = ((A.row i).filter (fun e => decide (e.1 = (i : Int)))).length := by
      rw [← List.countP_eq_length_filter, List.count_eq_countP, Csr.cols, List.countP_map]
      congr 1
    rw [this, e]; rfl
  exact ⟨by rw [h1]; exact hv, List.count_pos_iff.1 (by omega), h2⟩

omit [DecidableEq R] in
theorem Csr.sorRow_of {i : Nat} (h1 : A.mat i i ≠ 0) (h2 : (A.cols i).count (i : Int) ≤ 1) :
    A.SorRow i := by
  have : (A.cols i).count (i : Int) = ((A.row i).filter (fun e => decide (e.1 = (i : Int)))).length := by
    rw [← List.countP_eq_length_filter, List.count_eq_countP, Csr.cols, List.countP_map]
    congr 1
  rw [this] at h2
  unfold Csr.mat Csr.entry at h1
  unfold Csr.SorRow
  generalize hL : (A.row i).filter (fun e => decide (e.1 = (i : Int))) = L at *
  match L with
  | [] => simp at h1
  | [a] =>
    have ha : a.1 = (i : Int) := filter_fst (L := A.row i) (by rw [hL]; simp)
    refine ⟨a.2, by simpa using h1, ?_⟩
    rw [← ha]
  | _ :: _ :: _ => simp at h2

/-- the entries of one row -/
theorem sorRow_sum (hA : A.WF) (hsq : A.m = A.n) {i : Nat} (hi : i < A.m) (h : A.SorRow i)
    {x : List R} (hx : A.m ≤ x.length) :
    forC (A.p i) (A.p (i + 1)) (sorRowStep A.base A.ind A.val x i) ((0 : R), (1 : R))
      = some (∑ j ∈ range A.m with j ≠ i, A.mat i j * x.getD j 0, A.mat i i) := by
  have hsh : forC (A.p i) (A.p (i + 1)) (sorRowStep A.base A.ind A.val x i) ((0 : R), (1 : R))
      = forC (A.p i - A.base) (A.p (i + 1) - A.base)
        (fun k s => sorRowStep A.base A.ind A.val x i (A.base + k) s) (0, 1) := by
    rw [forC_shift A.base]
    congr 1 <;> ring
  rw [hsh, Csr.forC_row' (G := fun c v s =>
    if (i : Int) ≠ c then (rd x c).bind fun xc => some (s.1 + v * xc, s.2) else some (s.1, v)) hA hi (by
      intro j c v s e1 e2 _
      unfold sorRowStep
      have : A.base + j - A.base = j := by ring
      have h2 : c + A.base - A.base = c := by ring
      simp only [this, e1, e2, Option.bind_eq_bind, Option.bind_some, h2])]
  obtain ⟨v, hv, hD⟩ := h
  obtain ⟨s, es, hs1, hs2⟩ := foldlM_inv (l := A.row i) (s := ((0 : R), (1 : R)))
    (f := fun s e => if (i : Int) ≠ e.1 then (rd x e.1).bind fun xc => some (s.1 + e.2 * xc, s.2)
      else some (s.1, e.2))
    (fun pre s => s.1 = ((pre.filter fun e => decide (e.1 ≠ (i : Int))).map
        fun e => e.2 * x.getD e.1.toNat 0).sum ∧
      s.2 = (((pre.filter fun e => decide (e.1 = (i : Int))).map (·.2)).getLast?).getD 1)
    ⟨by simp, by simp⟩ (by
      rintro pre e suf s hl ⟨p1, p2⟩
      have hr := Csr.row_range hA (i := i) (e := e) (by rw [hl]; simp)
      by_cases hc : (i : Int) = e.1
      · refine ⟨_, if_neg (by simp [hc]), ?_, ?_⟩
        · simp [List.filter_append, List.filter_cons, ← hc, p1]
        · simp [List.filter_append, List.filter_cons, ← hc]
      · have hx' : rd x e.1 = some (x.getD e.1.toNat 0) := by
          rw [rd_eq hr.1, List.getD_eq_getElem?_getD, List.getElem?_eq_getElem (by omega)]; rfl
        refine ⟨(s.1 + e.2 * x.getD e.1.toNat 0, s.2), ?_, ?_, ?_⟩
        · rw [if_pos hc, hx']; rfl
        · simp [List.filter_append, List.filter_cons, Ne.symm hc, p1]
        · simp [List.filter_append, List.filter_cons, Ne.symm hc, p2])
  rw [es]
  have hmat : A.mat i i = v := by
    unfold Csr.mat Csr.entry
    rw [hD]; simp
  have h2 : s.2 = A.mat i i := by
    rw [hs2, hD, hmat]; rfl
  have h1 : s.1 = ∑ j ∈ range A.m with j ≠ i, A.mat i j * x.getD j 0 := by
    rw [hs1, filter_sum_mul _ A.m (fun k => x.getD k 0) (by
      intro e he
      have := Csr.row_range hA (List.mem_filter.1 he).1
      omega), sum_filter]
    apply sum_congr rfl
    intro j _
    rw [List.filter_filter]
    by_cases hj : j = i
    · subst hj
      have : (A.row j).filter (fun e => decide (e.1 = (j : Int)) && decide (e.1 ≠ (j : Int))) = [] := by
        rw [List.filter_eq_nil_iff]; intro e _; simp
      rw [this]; simp
    · rw [if_pos hj]
      congr 1
      unfold Csr.mat Csr.entry
      congr 2
      apply List.filter_congr
      intro e _
      by_cases he : e.1 = (j : Int)
      · have : e.1 ≠ (i : Int) := by omega
        simp [he, hj]
      · simp [he]
  rw [← h1, ← h2]

theorem sorScale_spec {n : Nat} {alpha : R} {x : List R} (hx : n ≤ x.length) :
    ∃ x', sorScale (n : Int) alpha x = some x' ∧
      Rep x' x.length (fun k => if k < n then alpha * x.getD k 0 else x.getD k 0) := by
  have h0 := Rep.of_list x (0 : R)
  unfold sorScale
  by_cases ha : alpha = 0
  · rw [if_neg (by simp [ha])]
    obtain ⟨b, e, h⟩ := fill_rep (g := fun _ => alpha) h0 hx (fun i x => wr x i alpha) (fun _ _ _ => rfl)
    refine ⟨b, e, h.congr ?_⟩
    intro k _
    rw [ha]; simp
  · rw [if_pos ha]
    refine forC_inv_nat (P := fun i b => Rep b x.length (fun k => if k < i then alpha * x.getD k 0
      else x.getD k 0)) (h0.congr fun k _ => by simp) ?_
    intro k z hk hz
    have e1 : rd z (k : Int) = some (x.getD k 0) := by
      rw [hz.rd_nat (by omega)]; simp
    obtain ⟨z', e2, h2⟩ := hz.wr_nat (i := k) (alpha * x.getD k 0) (by omega)
    refine ⟨z', by simp only [e1, Option.bind_eq_bind, Option.bind_some]; exact e2, h2.congr ?_⟩
    intro j _
    by_cases hjk : j = k
    · subst hjk; simp
    · rw [Function.update_of_ne hjk]
      by_cases h : j < k
      · rw [if_pos h, if_pos (by omega)]
      · rw [if_neg h, if_neg (by omega)]

/-- one sweep: the new values solve the recurrence -/
theorem sorForward_spec (hA : A.WF) (hsq : A.m = A.n) (hd : ∀ i, i < A.m → A.SorRow i)
    {omega : R} {x b : List R} (hx : A.m ≤ x.length) (hb : A.m ≤ b.length) :
    ∃ x', sorForward (A.m : Int) A.base A.ptr A.ind A.val omega x b = some x' ∧ x'.length = x.length ∧
      (∀ i, i < A.m → x'.getD i 0 = (1 - omega) * x.getD i 0 + omega * ((b.getD i 0
        - ∑ j ∈ range A.m with j < i, A.mat i j * x'.getD j 0
        - ∑ j ∈ range A.m with i < j, A.mat i j * x.getD j 0) / A.mat i i)) ∧
      ∀ i, A.m ≤ i → x'[i]? = x[i]? := by
  obtain ⟨x', e, h1, h2, h3⟩ := forC_inv_nat (n := A.m) (s := x) (f := sorRow A.base A.ptr A.ind A.val omega b)
    (P := fun k z => z.length = x.length ∧
      (∀ i, i < k → z.getD i 0 = (1 - omega) * x.getD i 0 + omega * ((b.getD i 0
        - ∑ j ∈ range A.m with j < i, A.mat i j * z.getD j 0
        - ∑ j ∈ range A.m with i < j, A.mat i j * x.getD j 0) / A.mat i i)) ∧
      ∀ i, k ≤ i → z[i]? = x[i]?)
    ⟨rfl, fun i hi => absurd hi (by omega), fun _ _ => rfl⟩ (by
      rintro k z hk ⟨p1, p2, p3⟩
      have e1 := hA.rd_ptr (i := k) (by omega)
      have e2 : rd A.ptr ((k : Int) + 1) = some (A.p (k + 1)) := by
        have := hA.rd_ptr (i := k + 1) (by omega)
        push_cast at this
        exact this
      have e3 := sorRow_sum hA hsq hk (hd k hk) (x := z) (by omega)
      have hzk : ∀ j, k ≤ j → z.getD j 0 = x.getD j 0 := by
        intro j hj
        rw [List.getD_eq_getElem?_getD, p3 j hj, List.getD_eq_getElem?_getD]
      have e4 : rd z (k : Int) = some (x.getD k 0) := by
        rw [rd_ofNat, p3 k le_rfl, List.getD_eq_getElem?_getD, List.getElem?_eq_getElem (by omega)]; rfl
      have e5 : rd b (k : Int) = some (b.getD k 0) := by
        rw [rd_ofNat, List.getD_eq_getElem?_getD, List.getElem?_eq_getElem (by omega)]; rfl
      set S := ∑ j ∈ range A.m with j ≠ k, A.mat k j * z.getD j 0 with hS
      set v := x.getD k 0 + omega * ((b.getD k 0 - S) / A.mat k k - x.getD k 0) with hv
      have hne : ∀ j, j ≠ k → (z.set k v).getD j 0 = z.getD j 0 := by
        intro j hj
        rw [List.getD_eq_getElem?_getD, List.getElem?_set_ne (by omega), ← List.getD_eq_getElem?_getD]
      have hself : (z.set k v).getD k 0 = v := by
        rw [List.getD_eq_getElem?_getD, List.getElem?_set_self (by omega)]; rfl
      have hlow : ∀ i, i ≤ k → ∑ j ∈ range A.m with j < i, A.mat i j * (z.set k v).getD j 0
          = ∑ j ∈ range A.m with j < i, A.mat i j * z.getD j 0 := by
        intro i hi
        apply sum_congr rfl
        intro j hj
        rw [hne j (by have := (mem_filter.1 hj).2; omega)]
      refine ⟨z.set k v, ?_, by simpa using p1, ?_, ?_⟩
      · unfold sorRow
        simp only [e1, e2, e3, e4, e5, Option.bind_eq_bind, Option.bind_some]
        exact wr_ofNat (by omega)
      · intro i hi
        rw [hlow i (by omega)]
        by_cases hik : i = k
        · subst hik
          have hsplit : S = ∑ j ∈ range A.m with j < i, A.mat i j * z.getD j 0
              + ∑ j ∈ range A.m with i < j, A.mat i j * x.getD j 0 := by
            rw [hS, sum_filter, sum_filter, sum_filter, ← sum_add_distrib]
            apply sum_congr rfl
            intro j _
            rcases lt_trichotomy j i with h | h | h
            · simp [h, h.ne, not_lt.2 h.le]
            · simp [h]
            · have := hzk j h.le
              simp only [h, h.ne', not_lt.2 h.le, this, ne_eq, not_false_eq_true, if_true, if_false, zero_add]
          rw [hself, hv, hsplit, sub_sub]
          ring
        · rw [hne i hik]
          exact p2 i (by omega)
      · intro i hi
        rw [List.getElem?_set_ne (by omega)]
        exact p3 i (by omega))
  exact ⟨x', e, h1, h2, h3⟩

/-- scaling and sweep -/
theorem sorRun_spec (hA : A.WF) (hsq : A.m = A.n) (hd : ∀ i, i < A.m → A.SorRow i) {c : MCopy R}
    {H : MvHandle R} (hc : c.ptr = A.ptr ∧ c.ind = A.ind ∧ c.val = A.val) (hn : H.raw.un = (A.m : Int))
    {omega alpha : R} {x b : List R} (hx : A.m ≤ x.length) (hb : A.m ≤ b.length) :
    ∃ x', sorRun c H A.base omega alpha x b = some (.success, x', H) ∧
      IsSor A.mat A.m omega alpha b x x' := by
  obtain ⟨y, e1, hy⟩ := sorScale_spec (alpha := alpha) hx
  obtain ⟨x', e2, l2, s2, r2⟩ := sorForward_spec hA hsq hd (omega := omega) (x := y) (b := b)
    (by rw [hy.1]; exact hx) hb
  refine ⟨x', ?_, by rw [l2, hy.1], ?_, ?_⟩
  · unfold sorRun
    simp only [hn, e1, hc.1, hc.2.1, hc.2.2, e2, Option.bind_eq_bind, Option.bind_some]
  · intro i hi
    have hyv : ∀ j, j < A.m → y.getD j 0 = alpha * x.getD j 0 := by
      intro j hj
      rw [hy.getD 0 (by omega), if_pos hj]
    rw [s2 i hi, hyv i hi]
    congr 4
    apply sum_congr rfl
    intro j hj
    rw [hyv j (mem_range.1 (mem_filter.1 hj).1)]
  · intro i hi
    rw [r2 i hi]
    by_cases h : i < x.length
    · rw [hy.2 i h]
      dsimp only
      rw [if_neg (by omega), List.getD_eq_getElem?_getD, List.getElem?_eq_getElem h]; rfl
    · rw [List.getElem?_eq_none (by rw [hy.1]; omega), List.getElem?_eq_none (by omega)]

end
end Verif
