/-
Products that add to scattered elements of `y`, run in three arithmetics (see Shadow.lean): symmetric matrices given by
one triangle, and transposed triangles.
-/
import Verif.Proofs.ShadowFmt
import Verif.Spec.MvtExact
import Verif.Props.CsrmvSym
import Verif.Proofs.RoundedTrsv2

namespace Verif
open Model Rounding

variable {R : Type} [Zero R] [One R] [Add R] [Mul R] [DecidableEq R]
  {ρ : Rounding} {v : R → ℝ} {fac : R → Option (ℝ × ℝ)}

/-- number of entries of `S` in column `j` -/
def cntC {T : Type} (S : List (Int × T)) (j : Nat) : Nat := (S.filter fun e => e.1 = (j : Int)).length

theorem cntC_take {T : Type} {S : List (Int × T)} {t : Nat} (ht : t < S.length) (j : Nat) :
    cntC (S.take (t + 1)) j = cntC (S.take t) j + if S[t].1 = (j : Int) then 1 else 0 := by
  unfold cntC
  rw [List.take_succ_eq_append_getElem ht, List.filter_append, List.length_append]
  congr 1
  by_cases h : S[t].1 = (j : Int)
  · simp [h]
  · simp [h]

theorem cntC_append {T : Type} (S S' : List (Int × T)) (j : Nat) : cntC (S ++ S') j = cntC S j + cntC S' j := by
  simp [cntC]

theorem YQ.below {K K' : Nat → Nat} {y0 : List R} {m : Nat} {y : List R} {ye ys : List ℝ}
    (h : YQ (Below ρ v fac K y0 m) y ye ys) (hK : ∀ j, j < m → K j ≤ K' j) : YQ (Below ρ v fac K' y0 m) y ye ys :=
  h.mono fun i _ _ _ hb => ⟨fun hi => (hb.1 hi).mono (hK i hi), hb.2⟩

/-- `y[c] += t` -/
theorem scat_rel (hR : Contracts ρ v fac) {K : Nat → Nat} {y0 : List R} {m : Nat} {y : List R} {ye ys : List ℝ}
    (h : YQ (Below ρ v fac K y0 m) y ye ys) {c : Int} (h0 : 0 ≤ c) (h1 : c < m) {k : Nat} {t : R} {e s : ℝ}
    (hk : ∀ j, k ≤ K j) (ht : NearC ρ v fac k e s t) :
    Opt3 (YQ (Below ρ v fac (fun j => K j + if c = (j : Int) then 1 else 0) y0 m)) (addAt y c t) (addAt ye c e)
      (addAt ys c s) := by
  obtain ⟨i, rfl⟩ := Int.eq_ofNat_of_zero_le h0
  refine Opt3.mono (fun _ _ _ h => YQ.below h fun j _ => ?_) (addAt_rel hR (i := i) (by omega) h (hk i) ht)
  by_cases hij : j = i
  · subst hij; simp
  · simp [hij]

theorem symmRowSeq_rel (hR : Contracts ρ v fac) {ind : List Int} {val x : List R} (hv : ∀ a ∈ val, fac a = none)
    {base lo hi : Int} {S : List (Int × R)} (hS : Seg ind val base lo hi S) {m : Nat} (hc : ∀ e ∈ S, 0 ≤ e.1 ∧ e.1 < m)
    (alpha : R) {xi : R} {k : Nat} (hk : 2 ≤ k) {r : R} {e s : ℝ} (hr : NearC ρ v fac k e s r) {K : Nat → Nat}
    (hK : ∀ j, 2 ≤ K j) {y0 y : List R} {ye ys : List ℝ} (h : YQ (Below ρ v fac K y0 m) y ye ys) :
    Opt3 (fun a e s => NearC ρ v fac (k + S.length) e.1 s.1 a.1 ∧
        YQ (Below ρ v fac (fun j => K j + cntC S j) y0 m) a.2 e.2 s.2)
      (symmRowSeq id id base alpha val ind x lo hi xi r y)
      (symmRowSeq id id base (v alpha) (val.map v) ind (x.map v) lo hi (v xi) e ye)
      (symmRowSeq id id base |v alpha| (szs v val) ind (szs v x) lo hi |v xi| s ys) := by
  unfold symmRowSeq
  obtain ⟨hhi, hat⟩ := hS
  refine Opt3.mono (P := fun a e s => NearC ρ v fac (k + (hi - lo).toNat) e.1 s.1 a.1 ∧
      YQ (Below ρ v fac (fun j => K j + cntC (S.take (hi - lo).toNat) j) y0 m) a.2 e.2 s.2) ?_
    (Opt3.forC (fun t (a : R × List R) (e s : ℝ × List ℝ) => NearC ρ v fac (k + t) e.1 s.1 a.1 ∧
      YQ (Below ρ v fac (fun j => K j + cntC (S.take t) j) y0 m) a.2 e.2 s.2) ⟨hr, by simpa [cntC] using h⟩ ?_)
  · intro a e s h
    rw [show (hi - lo).toNat = S.length by omega, List.take_length] at h
    exact h
  · rintro t ht ⟨a, ya⟩ ⟨e, yae⟩ ⟨s, yas⟩ ⟨hn, hy⟩
    have hlt : t < S.length := by omega
    obtain ⟨q1, q2⟩ := hat t hlt
    obtain ⟨c0, c1⟩ := hc _ (List.getElem_mem hlt)
    rw [show lo + (t : Int) - base = lo - base + t by ring]
    refine Opt3.bind (rd_rel _) ?_
    rintro w _ _ ⟨hw, rfl, rfl⟩
    rw [q1]
    simp only [Option.bind_eq_bind, Option.bind_some, id]
    rw [show S[t].1 + base - base = S[t].1 by ring]
    refine Opt3.bind (rd_rel _) ?_
    rintro xc _ _ ⟨-, rfl, rfl⟩
    have ha : NearC ρ v fac 1 (v alpha * v w) (|v alpha| * |v w|) (alpha * w) := NearC.prod hR (hv w hw)
    have h1 := NearC.mul_right hR xi ha
    have h2 := NearC.mul_right hR xc ha
    rw [mul_comm (v xi), mul_comm |v xi|] at h1
    rw [mul_comm (v xc), mul_comm |v xc|] at h2
    refine Opt3.bind (scat_rel hR hy c0 c1 (fun j => le_trans (hK j) (Nat.le_add_right _ _)) h1) fun y1 y2 y3 hy' => ?_
    refine ⟨NearC.add hR hn (h2.mono (show 2 ≤ k + t by omega)), hy'.below fun j _ => ?_⟩
    rw [cntC_take hlt, Nat.add_assoc]

theorem symmDiagA_rel (hR : Contracts ρ v fac) {val : List R} (hv : ∀ a ∈ val, fac a = none) (diag : Nat) (base : Int)
    (alpha : R) (idiag : List Int) (i : Int) {xi : R} (hxi : fac xi = none) {k : Nat} (hk : 2 ≤ k) {r : R} {e s : ℝ}
    (hr : NearC ρ v fac k e s r) :
    Opt3 (fun a e s => NearC ρ v fac (k + 1) e s a) (symmDiagA id diag base alpha val idiag i xi r)
      (symmDiagA id diag base (v alpha) (val.map v) idiag i (v xi) e)
      (symmDiagA id diag base |v alpha| (szs v val) idiag i |v xi| s) := by
  unfold symmDiagA
  split
  · refine Opt3.bind (Opt3.same _) ?_
    rintro d _ _ ⟨rfl, rfl⟩
    refine Opt3.bind (rd_rel _) ?_
    rintro w _ _ ⟨hw, rfl, rfl⟩
    have h1 := NearC.mul_right hR xi (NearC.prod hR (a := alpha) (hv w hw))
    rw [mul_comm (v xi), mul_comm |v xi|] at h1
    exact NearC.add hR hr (h1.mono hk)
  · split
    · exact NearC.add hR hr ((NearC.prod hR hxi).mono (by omega))
    · exact hr.mono (Nat.le_succ _)

omit [Zero R] [One R] [Add R] [Mul R] [DecidableEq R] in
theorem shSymmBounds {A : Csr R} (hA : A.WF) {idiag iurow : List Int} {i : Nat}
    (him : i < A.m) {L D U : List (Int × R)} (h : CleanRow A idiag iurow i L D U) (f : Fill) :
    ∃ b, symmBounds f.code A.ptr idiag iurow i = some b ∧
      Seg A.ind A.val A.base b.1 b.2 (strictPart f L U) := by
  obtain ⟨s1, s2, s3⟩ := cleanFp_segs hA him h
  have e1 := Csr.WF.rd_ptr hA (i := i) (by omega)
  have e2 := Csr.WF.rd_ptr hA (i := i + 1) (by omega)
  rw [show ((i + 1 : Nat) : Int) = (i : Int) + 1 by push_cast; rfl] at e2
  cases f
  · exact ⟨_, by simp [symmBounds, Fill.code, e1, h.2.2.2.2.1]; rfl, s1⟩
  · exact ⟨_, by simp [symmBounds, Fill.code, e2, h.2.2.2.2.2.1]; rfl, s3⟩

omit [Zero R] [One R] [Add R] [Mul R] [DecidableEq R] in
theorem shTriBounds {A : Csr R} (hA : A.WF) {idiag iurow : List Int} {i : Nat} (hi : i < A.m)
    {L D U : List (Int × R)} (h : CleanRow A idiag iurow i L D U) (f : Fill) (Dg : Diag)
    (hsh : Dg = .nonUnit ∨ i < A.n) :
    ∃ b, triBounds f.code A.ptr idiag iurow i = some b ∧
      Seg A.ind A.val A.base (b.1 + triStart f.code Dg.code) (b.2 + triEnd f.code Dg.code)
        (triPart f Dg L D U) := by
  obtain ⟨s1, s2, s3⟩ := cleanFp_segs hA hi h
  have hs := A.seg_row hA hi
  have e1 := Csr.WF.rd_ptr hA (i := i) (by omega)
  have e2 := Csr.WF.rd_ptr hA (i := i + 1) (by omega)
  rw [show ((i + 1 : Nat) : Int) = (i : Int) + 1 by push_cast; rfl] at e2
  obtain ⟨h0, h1, h2, h3, h4, h5, h6⟩ := h
  rw [h0] at hs
  have sLD := hs.append_left
  rw [List.append_assoc] at hs
  have sDU := hs.append_right
  have hlen : A.p i + ((L ++ D).length : Int) = A.p i + L.length + D.length := by
    simp; ring
  rw [hlen] at sLD
  cases f
  · refine ⟨(A.p i, A.p i + L.length + D.length), by simp [triBounds, Fill.code, e1, h5], ?_⟩
    cases Dg
    · simpa [triStart, triEnd, Fill.code, Diag.code, triPart] using sLD
    all_goals
      have hD := h6 (by rcases hsh with h | h; · simp at h
                        · exact h)
      simp only [triStart, triEnd, Fill.code, Diag.code, triPart, hD]
      simpa using s1
  · refine ⟨(A.p i + L.length, A.p (i + 1)), by simp [triBounds, Fill.code, e2, h4], ?_⟩
    cases Dg
    · simpa [triStart, triEnd, Fill.code, Diag.code, triPart] using sDU
    all_goals
      have hD := h6 (by rcases hsh with h | h; · simp at h
                        · exact h)
      rw [hD] at s3
      simp only [triStart, triEnd, Fill.code, Diag.code, triPart]
      simpa using s3

omit [Zero R] [One R] [Add R] [Mul R] [DecidableEq R] in
theorem shTriPart_mem {A : Csr R} {idiag iurow : List Int} {i : Nat}
    {L D U : List (Int × R)} (h : CleanRow A idiag iurow i L D U) (f : Fill) (Dg : Diag) :
    ∀ e ∈ triPart f Dg L D U, e ∈ A.row i := by
  intro e he
  rw [h.1]
  cases f <;> cases Dg <;> simp only [triPart, List.mem_append] at he <;>
    simp only [List.mem_append] <;> tauto

/-- bound of the number of roundings of element `j` after `i` rows -/
def symDep (A : Csr R) (c i j : Nat) : Nat :=
  2 + (∑ r ∈ Finset.range i, cntC (A.row r) j) + if j < i then (A.row j).length + c else 0

omit [Zero R] [One R] [Add R] [Mul R] [DecidableEq R] in
theorem symDep_two (A : Csr R) (c i j : Nat) : 2 ≤ symDep A c i j := by unfold symDep; omega

omit [Zero R] [One R] [Add R] [Mul R] [DecidableEq R] in
theorem symDep_end (A : Csr R) (c : Nat) {j : Nat} (hj : j < A.m) :
    symDep A c A.m j = A.colCount j + (A.row j).length + (c + 2) := by
  unfold symDep Csr.colCount cntC
  rw [if_pos hj]
  omega

omit [Zero R] [One R] [Add R] [Mul R] [DecidableEq R] in
theorem symDep_step (A : Csr R) (c i j : Nat) {S : List (Int × R)} (h1 : cntC S j ≤ cntC (A.row i) j) {d : Nat}
    (h2 : d ≤ (A.row i).length + c) :
    symDep A c i j + cntC S j + (if j = i then d else 0) ≤ symDep A c (i + 1) j := by
  unfold symDep
  rw [Finset.sum_range_succ]
  by_cases hj : j = i
  · subst hj
    rw [if_pos rfl, if_neg (lt_irrefl _), if_pos (Nat.lt_succ_self _)]
    omega
  · rw [if_neg hj]
    by_cases h : j < i
    · rw [if_pos h, if_pos (by omega)]; omega
    · rw [if_neg h, if_neg (by omega)]; omega

omit [Zero R] [One R] [Add R] [Mul R] [DecidableEq R] in
theorem strict_sub {A : Csr R} {idiag iurow : List Int} {i : Nat} {L D U : List (Int × R)}
    (h : CleanRow A idiag iurow i L D U) (f : Fill) : (∀ j, cntC (strictPart f L U) j ≤ cntC (A.row i) j) ∧
      (strictPart f L U).length ≤ (A.row i).length ∧ ∀ e ∈ strictPart f L U, e ∈ A.row i := by
  rw [h.1]
  cases f
  · exact ⟨fun j => by simp only [strictPart, cntC_append]; omega, by simp only [strictPart, List.length_append]; omega,
      fun e he => by simp only [strictPart] at he; simp [he]⟩
  · exact ⟨fun j => by simp only [strictPart, cntC_append]; omega, by simp only [strictPart, List.length_append]; omega,
      fun e he => by simp only [strictPart] at he; simp [he]⟩

/-- the last statement of a row: `y[i] += r` -/
theorem symAdd_rel (hR : Contracts ρ v fac) {A : Csr R} {c i : Nat} {S : List (Int × R)} {d : Nat} {y0 : List R}
    {y : List R} {ye ys : List ℝ} (hi : i < A.m) (h1 : ∀ j, cntC S j ≤ cntC (A.row i) j) (h2 : d + 1 ≤ (A.row i).length + c)
    (hy : YQ (Below ρ v fac (fun j => symDep A c i j + cntC S j) y0 A.m) y ye ys) {r : R} {e s : ℝ}
    (hr : NearC ρ v fac d e s r) :
    Opt3 (YQ (Below ρ v fac (symDep A c (i + 1)) y0 A.m)) (addAt y i r) (addAt ye i e) (addAt ys i s) := by
  have hy' : YQ (Below ρ v fac (fun j => symDep A c i j + cntC S j + if j = i then d else 0) y0 A.m) y ye ys :=
    hy.below fun j _ => Nat.le_add_right _ _
  refine Opt3.mono ?_ (addAt_rel hR hi hy' (k := d) (by simp) hr)
  intro a b c' h
  refine h.below fun j _ => ?_
  have hst := symDep_step A c i j (h1 j) h2
  by_cases hj : j = i
  · subst hj
    rw [if_pos rfl] at hst ⊢
    simp only [if_true]
    omega
  · rw [if_neg hj] at hst ⊢
    rw [if_neg hj]
    omega

theorem csrmvSymmInternal_rel (hR : Contracts ρ v fac) (h1 : v 1 = 1) {A : Csr R} (hA : A.WF) (hsq : A.m = A.n)
    {idiag iurow : List Int} (hcl : Clean A idiag iurow) (f : Fill) (diag : Nat) (alpha beta : R) {x y : List R}
    (hm : A.m ≤ y.length) (hv : ∀ a ∈ A.val, fac a = none) (hx : ∀ a ∈ x, fac a = none) (hy : ∀ a ∈ y, fac a = none) :
    Opt3 (YQ (Below ρ v fac (fun j => A.colCount j + (A.row j).length + 6) y A.m))
      (csrmvSymmInternal A.base alpha A.m diag f.code A.val A.ind A.ptr idiag iurow x beta y)
      (csrmvSymmInternal A.base (v alpha) A.m diag f.code (A.val.map v) A.ind A.ptr idiag iurow (x.map v) (v beta) (y.map v))
      (csrmvSymmInternal A.base |v alpha| A.m diag f.code (szs v A.val) A.ind A.ptr idiag iurow (szs v x) |v beta|
        (szs v y)) := by
  unfold csrmvSymmInternal
  refine Opt3.bind (scaleY_rel hR h1 beta hm hy) fun a b c h => ?_
  refine Opt3.mono (P := YQ (Below ρ v fac (symDep A 4 ((A.m : Int) - 0).toNat) y A.m)) ?_
    (Opt3.forC (fun i => YQ (Below ρ v fac (symDep A 4 i) y A.m))
      (h.below fun j _ => le_trans (by omega) (symDep_two A 4 0 j)) ?_)
  · intro a b c h
    rw [show ((A.m : Int) - 0).toNat = A.m by omega] at h
    exact h.below fun j hj => (symDep_end A 4 hj).le
  · intro i hi a b c h
    rw [zero_add] at hi ⊢
    have hi' : i < A.m := by omega
    obtain ⟨L, D, U, hc⟩ := hcl i hi'
    obtain ⟨q, hq, hS⟩ := shSymmBounds hA hi' hc f
    obtain ⟨s1, s2, s3⟩ := strict_sub hc f
    rw [hq]
    simp only [Option.bind_eq_bind, Option.bind_some]
    refine Opt3.bind (rd_rel _) ?_
    rintro xi _ _ ⟨hxi, rfl, rfl⟩
    refine Opt3.bind (symmRowSeq_rel hR hv hS (fun e he => by
      have := Csr.row_range hA (s3 e he); omega) alpha (xi := xi) (le_refl 2) ((NearC.zero hR).mono (by omega))
      (symDep_two A 4 i) h) ?_
    rintro ⟨r, y1⟩ ⟨e, y2⟩ ⟨s, y3⟩ ⟨hr, hy1⟩
    refine Opt3.bind (symmDiagA_rel hR hv diag A.base alpha idiag i (hx xi hxi) (by omega) hr) fun r e s hr => ?_
    exact symAdd_rel hR hi' s1 (by omega) hy1 hr

/-! ### transposed triangle -/

theorem addAtIf_rel (hR : Contracts ρ v fac) {K : Nat → Nat} {y0 : List R} {m i : Nat} (c : Prop) [Decidable c]
    (hi : c → i < m) {y : List R} {ye ys : List ℝ} (h : YQ (Below ρ v fac K y0 m) y ye ys) {k : Nat} {t : R} {e s : ℝ}
    (hk : ∀ j, k ≤ K j) (ht : NearC ρ v fac k e s t) :
    Opt3 (YQ (Below ρ v fac (fun j => K j + if c ∧ i = j then 1 else 0) y0 m)) (addAtIf c y i t) (addAtIf c ye i e)
      (addAtIf c ys i s) := by
  unfold addAtIf
  split
  · rename_i hc
    refine Opt3.mono (fun _ _ _ h => YQ.below h fun j _ => ?_) (scat_rel hR h (c := (i : Int)) (by omega)
      (by have := hi hc; omega) hk ht)
    simp [hc]
  · exact h.below fun j _ => Nat.le_add_right _ _

/-- the loop `y[ind[j]] += val[j] * axi` -/
theorem scatLoop_rel (hR : Contracts ρ v fac) {ind : List Int} {val : List R}
    {base lo hi : Int} {S : List (Int × R)} (hS : Seg ind val base lo hi S) {m : Nat} (hc : ∀ e ∈ S, 0 ≤ e.1 ∧ e.1 < m)
    {w : R} {we ws : ℝ} (hw : NearC ρ v fac 1 we ws w) {K : Nat → Nat} (hK : ∀ j, 2 ≤ K j) {y0 y : List R}
    {ye ys : List ℝ} (h : YQ (Below ρ v fac K y0 m) y ye ys) :
    Opt3 (YQ (Below ρ v fac (fun j => K j + cntC S j) y0 m))
      (forC lo hi (fun j y => do
        let c ← rd ind (j - base)
        let v ← rd val (j - base)
        addAt y (c - base) (id v * w)) y)
      (forC lo hi (fun j y => do
        let c ← rd ind (j - base)
        let v ← rd (val.map v) (j - base)
        addAt y (c - base) (id v * we)) ye)
      (forC lo hi (fun j y => do
        let c ← rd ind (j - base)
        let v ← rd (szs v val) (j - base)
        addAt y (c - base) (id v * ws)) ys) := by
  obtain ⟨hhi, hat⟩ := hS
  refine Opt3.mono (P := YQ (Below ρ v fac (fun j => K j + cntC (S.take (hi - lo).toNat) j) y0 m)) ?_
    (Opt3.forC (fun t => YQ (Below ρ v fac (fun j => K j + cntC (S.take t) j) y0 m)) (by simpa [cntC] using h) ?_)
  · intro a e s h
    rw [show (hi - lo).toNat = S.length by omega, List.take_length] at h
    exact h
  · intro t ht a e s hy
    have hlt : t < S.length := by omega
    obtain ⟨q1, q2⟩ := hat t hlt
    obtain ⟨c0, c1⟩ := hc _ (List.getElem_mem hlt)
    rw [show lo + (t : Int) - base = lo - base + t by ring]
    rw [q1]
    simp only [Option.bind_eq_bind, Option.bind_some, id]
    refine Opt3.bind (rd_rel _) ?_
    rintro z _ _ ⟨-, rfl, rfl⟩
    rw [show S[t].1 + base - base = S[t].1 by ring]
    refine Opt3.mono (fun _ _ _ h => YQ.below h fun j _ => ?_) (scat_rel hR hy c0 c1
      (fun j => le_trans (hK j) (Nat.le_add_right _ _)) (NearC.mul_left hR z hw))
    rw [cntC_take hlt, Nat.add_assoc]

omit [Zero R] [One R] [Add R] [Mul R] [DecidableEq R] in
theorem triPart_cnt {A : Csr R} {idiag iurow : List Int} {i : Nat} {L D U : List (Int × R)}
    (h : CleanRow A idiag iurow i L D U) (f : Fill) (Dg : Diag) (j : Nat) :
    cntC (triPart f Dg L D U) j ≤ cntC (A.row i) j := by
  rw [h.1]
  cases f <;> cases Dg <;> simp only [triPart, cntC_append] <;> omega

theorem csrmvTriTh_rel (hR : Contracts ρ v fac) (h1 : v 1 = 1) {A : Csr R} (hA : A.WF)
    {idiag iurow : List Int} (hcl : Clean A idiag iurow) (f : Fill) (Dg : Diag) (hsh : Dg = .nonUnit ∨ A.m ≤ A.n)
    (alpha beta : R) {x y : List R} (hm : A.n ≤ y.length) (hx : ∀ a ∈ x, fac a = none) (hy : ∀ a ∈ y, fac a = none) :
    Opt3 (YQ (Below ρ v fac (fun j => A.colCount j + 4) y A.n))
      (csrmvTriTh id A.base alpha A.m A.n Dg.code f.code A.val A.ind A.ptr idiag iurow x beta y)
      (csrmvTriTh id A.base (v alpha) A.m A.n Dg.code f.code (A.val.map v) A.ind A.ptr idiag iurow (x.map v) (v beta)
        (y.map v))
      (csrmvTriTh id A.base |v alpha| A.m A.n Dg.code f.code (szs v A.val) A.ind A.ptr idiag iurow (szs v x) |v beta|
        (szs v y)) := by
  unfold csrmvTriTh
  refine Opt3.bind (scaleY_rel hR h1 beta hm hy) fun a b c h => ?_
  refine Opt3.mono (P := YQ (Below ρ v fac (fun j => 2 + (∑ r ∈ Finset.range ((A.m : Int) - 0).toNat, cntC (A.row r) j) +
      if j < ((A.m : Int) - 0).toNat then 2 else 0) y A.n)) ?_
    (Opt3.forC (fun i => YQ (Below ρ v fac (fun j => 2 + (∑ r ∈ Finset.range i, cntC (A.row r) j) +
      if j < i then 2 else 0) y A.n)) (h.below fun j _ => by omega) ?_)
  · intro a b c h
    rw [show ((A.m : Int) - 0).toNat = A.m by omega] at h
    refine h.below fun j hj => ?_
    unfold Csr.colCount
    unfold cntC
    split <;> omega
  · intro i hi a b c h
    rw [zero_add] at hi ⊢
    have hi' : i < A.m := by omega
    have hsh' : Dg = .nonUnit ∨ i < A.n := by rcases hsh with h | h <;> [left; right] <;> [exact h; omega]
    have hun : Dg.code = 1 → i < A.n := fun hd => by
      rcases hsh' with rfl | h
      · simp [Diag.code] at hd
      · exact h
    obtain ⟨L, D, U, hc⟩ := hcl i hi'
    obtain ⟨q, hq, hS⟩ := shTriBounds hA hi' hc f Dg hsh'
    rw [hq]
    simp only [Option.bind_eq_bind, Option.bind_some]
    refine Opt3.bind (rd_rel _) ?_
    rintro xi _ _ ⟨hxi, rfl, rfl⟩
    have hw : NearC ρ v fac 1 (v alpha * v xi) (|v alpha| * |v xi|) (alpha * xi) := NearC.prod hR (hx xi hxi)
    refine Opt3.bind (addAtIf_rel hR _ (fun hh => hun hh.2) h (fun j => by omega) hw) fun a b c h => ?_
    refine Opt3.bind (scatLoop_rel hR hS (fun e he => Csr.row_range hA (shTriPart_mem hc f Dg e he)) hw
      (fun j => by omega) h) fun a b c h => ?_
    refine Opt3.mono ?_ (addAtIf_rel hR _ (fun hh => hun hh.2) h (fun j => by omega) hw)
    intro a b c h
    refine h.below fun j _ => ?_
    have hct := triPart_cnt hc f Dg j
    rw [Finset.sum_range_succ]
    by_cases hj : i = j
    · subst hj
      rw [if_neg (lt_irrefl i), if_pos (Nat.lt_succ_self i)]
      split_ifs <;> omega
    · simp only [hj, and_false, if_false]
      by_cases h : j < i
      · rw [if_pos h, if_pos (by omega)]; omega
      · rw [if_neg h, if_neg (by omega)]; omega

/-! ### symmetric matrices, vector code -/

omit [Zero R] [One R] [Add R] [Mul R] [DecidableEq R] in
theorem shLanes_len {ind : List Int} {val x : List R} {base p : Int} {K : Nat} {L : List (R × R)}
    (h : lanesAt K ind val x base p = some L) : L.length = K := by
  unfold lanesAt at h
  have key : ∀ (g : Nat → Option (R × R)) (l : List Nat) (L : List (R × R)), l.mapM g = some L → L.length = l.length := by
    intro g l
    induction l with
    | nil => intro L h; simp at h; subst h; rfl
    | cons a l ih =>
      intro L h
      simp only [List.mapM_cons, Option.bind_eq_bind, Option.bind_eq_some_iff] at h
      obtain ⟨b, -, q, hq, hL⟩ := h
      cases hL
      simp [ih q hq]
  simpa using key _ _ L h

theorem hs_rel (hR : Contracts ρ v fac) {K d : Nat} {hs : List R → R} (hh : AddsLanes K d hs) {k : Nat} {a : List R}
    {e s : List ℝ} (ha : a.length = K) (h : NearL ρ v fac k a e s) : NearC ρ v fac (k + d) e.sum s.sum (hs a) := by
  obtain ⟨t, hp, hd, he⟩ := hh
  obtain ⟨l1, l2⟩ := h.len
  have hsum : ∀ q : List ℝ, q.length = K → (t.lanes.map fun l => q.getD l 0).sum = q.sum := by
    intro q hq
    rw [(hp.map fun l => q.getD l 0).sum_eq]
    congr 1
    subst hq
    refine List.ext_getElem (by simp) fun i h1 h2 => ?_
    simp [List.getD_eq_getElem?_getD, List.getElem?_eq_getElem h2]
  have := LaneTree.near hR (L := a) (k := k) (ev := fun l => e.getD l 0) (sv := fun l => s.getD l 0) t fun l hl => by
    have hlK : l < K := List.mem_range.1 (hp.mem_iff.1 hl)
    have hn := h l
    rw [List.getElem?_eq_getElem (show l < a.length by omega), List.getElem?_eq_getElem (show l < e.length by omega),
      List.getElem?_eq_getElem (show l < s.length by omega)] at hn
    simp only [List.getD_eq_getElem?_getD, List.getElem?_eq_getElem (show l < a.length by omega),
      List.getElem?_eq_getElem (show l < e.length by omega), List.getElem?_eq_getElem (show l < s.length by omega)]
    exact hn
  rw [hsum e (by omega), hsum s (by omega), ← he a ha] at this
  exact this.mono (by omega)

omit [Zero R] [One R] [Add R] [Mul R] [DecidableEq R] in
theorem shRd_map {S : Type} (g : R → S) (L : List R) (i : Nat) : rd (L.map g) (i : Int) = (rd L (i : Int)).map g := by
  rw [rd_ofNat, rd_ofNat, List.getElem?_map]

theorem symmKtRow_rel (hR : Contracts ρ v fac) {K d : Nat} (hK0 : 0 < K) {hs : List R → R} (hh : AddsLanes K d hs)
    {ind : List Int} {val x : List R} (hv : ∀ a ∈ val, fac a = none) (hx : ∀ a ∈ x, fac a = none) {base lo hi : Int}
    {S : List (Int × R)} (hS : Seg ind val base lo hi S) {m : Nat} (hc : ∀ e ∈ S, 0 ≤ e.1 ∧ e.1 < m) (alpha : R) {xi : R}
    (hxi : fac xi = none) {Kf : Nat → Nat} (hK : ∀ j, 2 ≤ Kf j) {y0 y : List R} {ye ys : List ℝ}
    (h : YQ (Below ρ v fac Kf y0 m) y ye ys) :
    Opt3 (fun a e s => NearC ρ v fac (1 + S.length + d) e.1 s.1 a.1 ∧
        YQ (Below ρ v fac (fun j => Kf j + cntC S j) y0 m) a.2 e.2 s.2)
      (symmKtRow (vecLanes K hs) K id base alpha val ind x lo hi xi y)
      (symmKtRow (vecLanes K List.sum) K id base (v alpha) (val.map v) ind (x.map v) lo hi (v xi) ye)
      (symmKtRow (vecLanes K List.sum) K id base |v alpha| (szs v val) ind (szs v x) lo hi |v xi| ys) := by
  obtain ⟨hhi, hat⟩ := hS
  unfold symmKtRow forS
  have hrem : (hi - lo).tmod (K : Int) = ((S.length % K : Nat) : Int) := by
    rw [show hi - lo = (S.length : Int) by omega]; rfl
  rw [hrem]
  dsimp only
  have hq : hi - ((S.length % K : Nat) : Int) = lo + (K : Int) * ((S.length / K : Nat) : Int) := by
    have := Nat.div_add_mod S.length K
    have h2 : (K : Int) * ((S.length / K : Nat) : Int) + ((S.length % K : Nat) : Int) = (S.length : Int) := by exact_mod_cast this
    omega
  have hn : (hi - ((S.length % K : Nat) : Int) - lo + (K : Int) - 1) / (K : Int) = ((S.length / K : Nat) : Int) := by
    rw [hq, show lo + (K : Int) * ((S.length / K : Nat) : Int) - lo + (K : Int) - 1
      = ((K : Int) - 1) + (K : Int) * ((S.length / K : Nat) : Int) by ring, Int.add_mul_ediv_left _ _ (by omega),
      Int.ediv_eq_zero_of_lt (by omega) (by omega), zero_add]
  rw [hn, hq]
  have hdm := Nat.div_add_mod S.length K
  have hax : NearC ρ v fac 1 (v alpha * v xi) (|v alpha| * |v xi|) (alpha * xi) := NearC.prod hR hxi
  refine Opt3.bind (P := fun (a : List R × List R) (e s : List ℝ × List ℝ) => a.1.length = K ∧
      NearL ρ v fac (1 + S.length / K) a.1 e.1 s.1 ∧
      YQ (Below ρ v fac (fun j => Kf j + cntC (S.take (K * (S.length / K))) j) y0 m) a.2 e.2 s.2) ?_ ?_
  · refine Opt3.mono (P := fun (a : List R × List R) (e s : List ℝ × List ℝ) => a.1.length = K ∧
      NearL ρ v fac (1 + (((S.length / K : Nat) : Int) - 0).toNat) a.1 e.1 s.1 ∧
      YQ (Below ρ v fac (fun j => Kf j + cntC (S.take (K * (((S.length / K : Nat) : Int) - 0).toNat)) j) y0 m)
        a.2 e.2 s.2) ?_
      (Opt3.forC (fun b (a : List R × List R) (e s : List ℝ × List ℝ) => a.1.length = K ∧
        NearL ρ v fac (1 + b) a.1 e.1 s.1 ∧
        YQ (Below ρ v fac (fun j => Kf j + cntC (S.take (K * b)) j) y0 m) a.2 e.2 s.2)
        ⟨by simp [vecLanes], nearL_zero hR K 1, by simpa [cntC] using h⟩ ?_)
    · intro a e s h
      rwa [sub_zero, Int.toNat_natCast] at h
    · rintro b hb ⟨a, ya⟩ ⟨e, yae⟩ ⟨s, yas⟩ ⟨hal, hL, hy⟩
      rw [zero_add] at hb ⊢
      have hb' : b < S.length / K := by omega
      have hbK : K * b + K ≤ S.length := by
        have : K * (b + 1) ≤ K * (S.length / K) := Nat.mul_le_mul_left K hb'
        rw [Nat.mul_succ] at this
        omega
      cases hl : lanesAt K ind val x base (lo + (K : Int) * (b : Int) - base) with
      | none =>
        have := lanesAt_rel (v := v) (val := val) (ind := ind) hx K base (lo + (K : Int) * (b : Int) - base)
        rw [hl] at this
        cases h1 : lanesAt K ind (val.map v) (x.map v) base (lo + (K : Int) * (b : Int) - base) <;>
          cases h2 : lanesAt K ind (szs v val) (szs v x) base (lo + (K : Int) * (b : Int) - base) <;>
          rw [h1, h2] at this <;> first | exact this.elim | trivial
      | some L =>
        have hll := shLanes_len hl
        refine Opt3.bind (P := fun (a : List (R × R)) (e s : List (ℝ × ℝ)) => a = L ∧ LanesRel v fac a e s) ?_ ?_
        · have := lanesAt_rel (v := v) (val := val) (ind := ind) hx K base (lo + (K : Int) * (b : Int) - base)
          rw [hl] at this
          cases h1 : lanesAt K ind (val.map v) (x.map v) base (lo + (K : Int) * (b : Int) - base) <;>
            cases h2 : lanesAt K ind (szs v val) (szs v x) base (lo + (K : Int) * (b : Int) - base) <;>
            rw [h1, h2] at this <;> first | exact this.elim | exact ⟨rfl, this⟩
        rintro L' Le Ls ⟨hLL, hLR⟩
        subst L'
        refine Opt3.bind (P := fun (a : List R) (e s : List ℝ) =>
          YQ (Below ρ v fac (fun j => Kf j + cntC (S.take (K * (b + 1))) j) y0 m) a e s) ?_ ?_
        · refine Opt3.mono (P := YQ (Below ρ v fac (fun j => Kf j + cntC (S.take (K * b + ((K : Int) - 0).toNat)) j) y0 m)) ?_
            (Opt3.forC (fun t => YQ (Below ρ v fac (fun j => Kf j + cntC (S.take (K * b + t)) j) y0 m)) hy ?_)
          · intro a e s h
            rwa [show ((K : Int) - 0).toNat = K by omega, ← Nat.mul_succ] at h
          · intro t ht a e s hy
            rw [zero_add] at ht ⊢
            have hlt : K * b + t < S.length := by omega
            obtain ⟨q1, q2⟩ := hat _ hlt
            obtain ⟨c0, c1⟩ := hc _ (List.getElem_mem hlt)
            rw [show lo + (K : Int) * (b : Int) + (t : Int) - base = lo - base + ((K * b + t : Nat) : Int) by push_cast; ring,
              q1]
            simp only [Option.bind_eq_bind, Option.bind_some, id]
            obtain ⟨hp, rfl, rfl⟩ := hLR
            simp only [List.map_map]
            rw [rd_ofNat, rd_ofNat, rd_ofNat, List.getElem?_map, List.getElem?_map, List.getElem?_map]
            rw [List.getElem?_eq_getElem (show t < L.length by omega)]
            simp only [Option.map_some, Option.bind_some, Function.comp]
            rw [show S[K * b + t].1 + base - base = S[K * b + t].1 by ring]
            refine Opt3.mono (fun _ _ _ h => YQ.below h fun j _ => ?_) (scat_rel hR hy c0 c1
              (fun j => le_trans (hK j) (Nat.le_add_right _ _)) (NearC.mul_left hR _ hax))
            rw [← Nat.add_assoc (K * b), cntC_take hlt, Nat.add_assoc]
        · intro y1 y2 y3 hy1
          refine ⟨?_, ?_, hy1⟩
          · simp [vecLanes, hll, hal]
          · exact fma_rel hR (show 1 ≤ 1 + b by omega) hLR hL
  · rintro ⟨a, ya⟩ ⟨e, yae⟩ ⟨s, yas⟩ ⟨hal, hL, hy⟩
    have hsum := hs_rel hR hh hal hL
    have hcnt : (hi - (lo + (K : Int) * ((S.length / K : Nat) : Int))).toNat = S.length % K := by omega
    refine Opt3.mono (P := fun a e s => NearC ρ v fac (1 + S.length / K + d +
        (hi - (lo + (K : Int) * ((S.length / K : Nat) : Int))).toNat) e.1 s.1 a.1 ∧
        YQ (Below ρ v fac (fun j => Kf j + cntC (S.take (K * (S.length / K) +
          (hi - (lo + (K : Int) * ((S.length / K : Nat) : Int))).toNat)) j) y0 m) a.2 e.2 s.2) ?_
      (Opt3.forC (fun t (a : R × List R) (e s : ℝ × List ℝ) => NearC ρ v fac (1 + S.length / K + d + t) e.1 s.1 a.1 ∧
        YQ (Below ρ v fac (fun j => Kf j + cntC (S.take (K * (S.length / K) + t)) j) y0 m) a.2 e.2 s.2) ⟨hsum, hy⟩ ?_)
    · rintro a e s ⟨h1, h2⟩
      rw [hcnt] at h1 h2
      rw [hdm, List.take_length] at h2
      refine ⟨h1.mono ?_, h2⟩
      have : S.length / K ≤ K * (S.length / K) := Nat.le_mul_of_pos_left _ hK0
      omega
    · rintro t ht ⟨a, ya⟩ ⟨e, yae⟩ ⟨s, yas⟩ ⟨hn, hy⟩
      have hlt : K * (S.length / K) + t < S.length := by omega
      obtain ⟨q1, q2⟩ := hat _ hlt
      obtain ⟨c0, c1⟩ := hc _ (List.getElem_mem hlt)
      rw [show lo + (K : Int) * ((S.length / K : Nat) : Int) + (t : Int) - base
        = lo - base + ((K * (S.length / K) + t : Nat) : Int) by push_cast; ring, q1]
      simp only [Option.bind_eq_bind, Option.bind_some, id]
      refine Opt3.bind (rd_rel _) ?_
      rintro w _ _ ⟨hw, rfl, rfl⟩
      rw [show S[K * (S.length / K) + t].1 + base - base = S[K * (S.length / K) + t].1 by ring]
      refine Opt3.bind (rd_rel _) ?_
      rintro xc _ _ ⟨hxc, rfl, rfl⟩
      have h1 := NearC.mul_right hR xi (NearC.prod hR (a := alpha) (hv w hw))
      rw [mul_comm (v xi), mul_comm |v xi|] at h1
      refine Opt3.bind (scat_rel hR hy c0 c1 (fun j => le_trans (hK j) (Nat.le_add_right _ _)) h1) fun y1 y2 y3 hy' => ?_
      refine ⟨NearC.add hR hn ((NearC.prod hR (hx xc hxc)).mono (show 1 ≤ 1 + S.length / K + d + t by generalize S.length / K = q; omega)),
        hy'.below fun j _ => ?_⟩
      rw [← Nat.add_assoc (K * _), cntC_take hlt, Nat.add_assoc]

theorem symmDiag_rel (hR : Contracts ρ v fac) {val : List R} (diag : Nat) (base : Int)
    (idiag : List Int) (i : Int) {xi : R} (hxi : fac xi = none) {k : Nat} (hk : 1 ≤ k) {r : R} {e s : ℝ}
    (hr : NearC ρ v fac k e s r) :
    Opt3 (fun a e s => NearC ρ v fac (k + 1) e s a) (symmDiag id diag base val idiag i xi r)
      (symmDiag id diag base (val.map v) idiag i (v xi) e) (symmDiag id diag base (szs v val) idiag i |v xi| s) := by
  unfold symmDiag
  split
  · refine Opt3.bind (Opt3.same _) ?_
    rintro d _ _ ⟨rfl, rfl⟩
    refine Opt3.bind (rd_rel _) ?_
    rintro w _ _ ⟨hw, rfl, rfl⟩
    exact NearC.add hR hr ((NearC.prod hR hxi).mono hk)
  · split
    · exact NearC.add hR hr ((NearC.plain hxi).mono (by omega))
    · exact hr.mono (Nat.le_succ _)

theorem csrmvSymmKt_rel (hR : Contracts ρ v fac) (h1 : v 1 = 1) {K d : Nat} (hK0 : 0 < K) {hs : List R → R}
    (hh : AddsLanes K d hs) {A : Csr R} (hA : A.WF) (hsq : A.m = A.n)
    {idiag iurow : List Int} (hcl : Clean A idiag iurow) (f : Fill) (diag : Nat) (alpha beta : R) {x y : List R}
    (hm : A.m ≤ y.length) (hv : ∀ a ∈ A.val, fac a = none) (hx : ∀ a ∈ x, fac a = none) (hy : ∀ a ∈ y, fac a = none) :
    Opt3 (YQ (Below ρ v fac (fun j => A.colCount j + (A.row j).length + (d + 6)) y A.m))
      (csrmvSymmKt (vecLanes K hs) K id A.base alpha A.m diag f.code A.val A.ind A.ptr idiag iurow x beta y)
      (csrmvSymmKt (vecLanes K List.sum) K id A.base (v alpha) A.m diag f.code (A.val.map v) A.ind A.ptr idiag iurow
        (x.map v) (v beta) (y.map v))
      (csrmvSymmKt (vecLanes K List.sum) K id A.base |v alpha| A.m diag f.code (szs v A.val) A.ind A.ptr idiag iurow
        (szs v x) |v beta| (szs v y)) := by
  unfold csrmvSymmKt
  refine Opt3.bind (scaleY_rel hR h1 beta hm hy) fun a b c h => ?_
  refine Opt3.mono (P := YQ (Below ρ v fac (symDep A (d + 4) ((A.m : Int) - 0).toNat) y A.m)) ?_
    (Opt3.forC (fun i => YQ (Below ρ v fac (symDep A (d + 4) i) y A.m))
      (h.below fun j _ => le_trans (by omega) (symDep_two A (d + 4) 0 j)) ?_)
  · intro a b c h
    rw [show ((A.m : Int) - 0).toNat = A.m by omega] at h
    exact h.below fun j hj => (symDep_end A (d + 4) hj).le
  · intro i hi a b c h
    rw [zero_add] at hi ⊢
    have hi' : i < A.m := by omega
    obtain ⟨L, D, U, hc⟩ := hcl i hi'
    obtain ⟨q, hq, hS⟩ := shSymmBounds hA hi' hc f
    obtain ⟨s1, s2, s3⟩ := strict_sub hc f
    rw [hq]
    simp only [Option.bind_eq_bind, Option.bind_some]
    refine Opt3.bind (rd_rel _) ?_
    rintro xi _ _ ⟨hxi, rfl, rfl⟩
    refine Opt3.bind (symmKtRow_rel hR hK0 hh hv hx hS (fun e he => by
      have := Csr.row_range hA (s3 e he); omega) alpha (xi := xi) (hx xi hxi) (symDep_two A (d + 4) i) h) ?_
    rintro ⟨r, y1⟩ ⟨e, y2⟩ ⟨s, y3⟩ ⟨hr, hy1⟩
    refine Opt3.bind (symmDiag_rel hR diag A.base idiag i (hx xi hxi) (by omega) hr) fun r e s hr => ?_
    have hr' := NearC.mul_right hR alpha hr
    rw [mul_comm (v alpha), mul_comm |v alpha|] at hr'
    exact symAdd_rel hR hi' s1 (by omega) hy1 hr'

end Verif
