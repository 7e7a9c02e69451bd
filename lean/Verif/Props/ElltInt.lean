/-
C10  The conversion to transposed ELL in the integer type of the library.
-/
import Verif.Model.ElltInt
import Verif.Props.DiaInt

namespace Verif
open Model

variable {R : Type} [Zero R]

/-- **C10, range.**  If the number of rows and the length of the array of indices are representable, the conversion to
transposed ELL in the integers of the library does what it does in unbounded integers. -/
theorem C10_ellt_range (bits : Nat) (m base : Int) (hm : m ≤ intMax bits) (ptr ind : List Int) (val : List R) (w : Int)
    (ec : List Int) (ev : List R) (hL : (ec.length : Int) ≤ intMax bits)
    (r : List Int × List R) (h : csr2elltCore m base ptr ind val w ec ev = some r) :
    csr2elltCoreInt bits m base ptr ind val w ec ev = some r := by
  unfold csr2elltCore at h
  unfold csr2elltCoreInt
  refine (forC_lift (fun s : List Int × List R => s.1.length = ec.length) rfl ?_ h).1
  intro i s s' hi him hs hf
  obtain ⟨rb, f1, hf⟩ := Option.bind_eq_some_iff.mp hf
  obtain ⟨re, f2, hf⟩ := Option.bind_eq_some_iff.mp hf
  obtain ⟨ks, f3, hf⟩ := Option.bind_eq_some_iff.mp hf
  obtain ⟨g1, q1⟩ := forC_lift (g := elltPutInt bits m ind val i)
    (fun ps : Int × List Int × List R => ps.2.1.length = ec.length) hs
    (by
      intro j ps ps' _ _ hp hf
      obtain ⟨c, a1, hf⟩ := Option.bind_eq_some_iff.mp hf
      obtain ⟨v, a2, hf⟩ := Option.bind_eq_some_iff.mp hf
      obtain ⟨e1, a3, hf⟩ := Option.bind_eq_some_iff.mp hf
      obtain ⟨e2, a4, hf⟩ := Option.bind_eq_some_iff.mp hf
      have hwr := wr_some_iff.mp a3
      unfold elltPutInt
      simp only [a1, a2, Option.bind_eq_bind, Option.bind_some]
      rw [chk_mid (by omega) (by omega), Option.bind_some, chk_mid (by omega) (by omega), Option.bind_some, a3,
        Option.bind_some, a4, Option.bind_some]
      refine ⟨hf, ?_⟩
      rw [← Option.some.inj hf]
      show e1.length = _
      rw [wr_length a3, hp]) f3
  obtain ⟨g2, q2⟩ := forC_lift (g := elltPadInt bits m ind (re - base) i)
    (fun ps : List Int × List R => ps.1.length = ec.length) q1
    (by
      intro j ps ps' _ _ hp hf
      obtain ⟨c, a1, hf⟩ := Option.bind_eq_some_iff.mp hf
      obtain ⟨e1, a3, hf⟩ := Option.bind_eq_some_iff.mp hf
      obtain ⟨e2, a4, hf⟩ := Option.bind_eq_some_iff.mp hf
      have hwr := wr_some_iff.mp a3
      unfold elltPadInt
      simp only [a1, Option.bind_eq_bind, Option.bind_some]
      rw [chk_mid (by omega) (by omega), Option.bind_some, chk_mid (by omega) (by omega), Option.bind_some, a3,
        Option.bind_some, a4, Option.bind_some]
      refine ⟨hf, ?_⟩
      rw [← Option.some.inj hf]
      show e1.length = _
      rw [wr_length a3, hp]) hf
  refine ⟨?_, q2⟩
  unfold elltRowInt
  simp only [f1, f2, Option.bind_eq_bind, Option.bind_some]
  rw [g1, Option.bind_some, g2]

/-- **C10, overflow (F113).**  If the first row is shorter than the width and the position of its last cell is not
representable, the conversion is undefined, however few entries the matrix has. -/
theorem C10_ellt_overflow (bits : Nat) (m base b e : Int) (hm : 0 < m) (ptr ind : List Int) (val : List R) (w : Int)
    (ec : List Int) (ev : List R) (hb : rd ptr 0 = some b) (he : rd ptr 1 = some e) (hbe : b ≤ e) (hw : e - b < w)
    (h : intMax bits < (w - 1) * m) : csr2elltCoreInt bits m base ptr ind val w ec ev = none := by
  obtain ⟨k, hk⟩ : ∃ k : Nat, (m - 0).toNat = k + 1 := ⟨(m - 0).toNat - 1, by omega⟩
  have hrow : elltRowInt bits m base ptr ind val w 0 (ec, ev) = none := by
    cases hr : elltRowInt bits m base ptr ind val w 0 (ec, ev) with
    | none => rfl
    | some r =>
      exfalso
      unfold elltRowInt at hr
      obtain ⟨b', f1, hr⟩ := Option.bind_eq_some_iff.mp hr
      obtain ⟨e', f2, hr⟩ := Option.bind_eq_some_iff.mp hr
      obtain ⟨ks, f3, hlast⟩ := Option.bind_eq_some_iff.mp hr
      have hbb : b = b' := Option.some.inj (hb.symm.trans f1)
      have hee : e = e' := Option.some.inj (he.symm.trans f2)
      subst hbb hee
      have h1 := forN_keeps (P := fun (j : Int) (ks : Int × List Int × List R) => ks.1 = j - (b - base))
        (e - base - (b - base)).toNat (b - base) _ _ f3 (by simp)
        (by
          intro j s s' _ _ hs hf
          unfold elltPutInt at hf
          obtain ⟨_, _, hf⟩ := Option.bind_eq_some_iff.mp hf
          obtain ⟨_, _, hf⟩ := Option.bind_eq_some_iff.mp hf
          obtain ⟨_, _, hf⟩ := Option.bind_eq_some_iff.mp hf
          obtain ⟨_, _, hf⟩ := Option.bind_eq_some_iff.mp hf
          obtain ⟨_, _, hf⟩ := Option.bind_eq_some_iff.mp hf
          obtain ⟨_, _, hf⟩ := Option.bind_eq_some_iff.mp hf
          rw [← Option.some.inj hf]
          show s.1 + 1 = _
          omega)
      have h2 := forN_keeps (P := fun (j : Int) (_ : List Int × List R) => ∀ k, ks.1 ≤ k → k < j → k * m ≤ intMax bits)
        (w - ks.1).toNat ks.1 _ _ hlast (by intro k _ _; omega)
        (by
          intro j s s' _ _ hs hf k h3 h4
          by_cases hkj : k = j
          · subst hkj
            unfold elltPadInt at hf
            obtain ⟨_, _, hf⟩ := Option.bind_eq_some_iff.mp hf
            obtain ⟨_, hc, hf⟩ := Option.bind_eq_some_iff.mp hf
            unfold chk at hc
            split at hc
            · rename_i hx
              exact hx.2
            · cases hc
          · exact hs k h3 (by omega))
        (w - 1) (by omega) (by omega)
      omega
  unfold csr2elltCoreInt
  show forN _ (m - 0).toNat 0 _ = none
  rw [hk, forN, hrow]
  rfl

/-! ### cases that meet the hypotheses -/

/-- two rows, width 2 -/
example := C10_ellt_range (R := Int) 32 2 0 (by decide) [0, 2, 3] [0, 1, 1] [5, 6, 7] 2 [0, 0, 0, 0] [0, 0, 0, 0]
  (by decide) ([0, 1, 1, 1], [5, 7, 6, 0]) (by decide)

/-- 65537 rows, width 65536, one entry in the first row -/
example (ptr ind ec val ev : List Int) (h0 : rd ptr 0 = some 0) (h1 : rd ptr 1 = some 1) :=
  C10_ellt_overflow 32 65537 0 0 1 (by decide) ptr ind val 65536 ec ev h0 h1 (by decide) (by decide) (by decide)

end Verif
