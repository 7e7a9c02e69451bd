/-
C09  The conversion to ELL in the integer type of the library.
-/
import Verif.Model.EllInt
import Verif.Props.DiaInt

namespace Verif
open Model

variable {R : Type} [Zero R]

/-- **C09, range.**  If the number of rows times the width and the length of the array of indices are representable, the
conversion to ELL in the integers of the library does what it does in unbounded integers. -/
theorem C09_ell_range (bits : Nat) (m base : Int) (ptr ind : List Int) (val : List R) (w : Int) (hw : 0 ≤ w)
    (ec : List Int) (ev : List R) (hmw : m * w ≤ intMax bits) (hL : (ec.length : Int) ≤ intMax bits)
    (r : List Int × List R) (h : csr2ellCore m base ptr ind val w ec ev = some r) :
    csr2ellCoreInt bits m base ptr ind val w ec ev = some r := by
  unfold csr2ellCore at h
  unfold csr2ellCoreInt
  refine (forC_lift (fun s : List Int × List R => s.1.length = ec.length) rfl ?_ h).1
  intro i s s' hi him hs hf
  obtain ⟨rb, f1, hf⟩ := Option.bind_eq_some_iff.mp hf
  obtain ⟨re, f2, hf⟩ := Option.bind_eq_some_iff.mp hf
  obtain ⟨p1, f3, hf⟩ := Option.bind_eq_some_iff.mp hf
  obtain ⟨p2, f4, hf⟩ := Option.bind_eq_some_iff.mp hf
  have hiw0 : 0 ≤ i * w := Int.mul_nonneg hi hw
  have hiw : i * w ≤ m * w := by nlinarith
  obtain ⟨g1, q1⟩ := forC_lift (g := ellPutInt bits ind val)
    (fun ps : Int × List Int × List R => ps.2.1.length = ec.length) hs
    (by
      intro j ps ps' _ _ hp hf
      obtain ⟨c, a1, hf⟩ := Option.bind_eq_some_iff.mp hf
      obtain ⟨v, a2, hf⟩ := Option.bind_eq_some_iff.mp hf
      obtain ⟨e1, a3, hf⟩ := Option.bind_eq_some_iff.mp hf
      obtain ⟨e2, a4, hf⟩ := Option.bind_eq_some_iff.mp hf
      have hwr := wr_some_iff.mp a3
      unfold ellPutInt
      simp only [a1, a2, a3, a4, Option.bind_eq_bind, Option.bind_some]
      rw [chk_mid (by omega) (by omega), Option.bind_some]
      refine ⟨hf, ?_⟩
      rw [← Option.some.inj hf]
      show e1.length = _
      rw [wr_length a3, hp]) f3
  obtain ⟨g2, q2⟩ := forC_lift (g := fun _ ps => ellPadInt bits ps)
    (fun ps : Int × List Int × List R => ps.2.1.length = ec.length) q1
    (by
      intro j ps ps' _ _ hp hf
      obtain ⟨e1, a3, hf⟩ := Option.bind_eq_some_iff.mp hf
      obtain ⟨e2, a4, hf⟩ := Option.bind_eq_some_iff.mp hf
      have hwr := wr_some_iff.mp a3
      unfold ellPadInt
      simp only [a3, a4, Option.bind_eq_bind, Option.bind_some]
      rw [chk_mid (by omega) (by omega), Option.bind_some]
      refine ⟨hf, ?_⟩
      rw [← Option.some.inj hf]
      show e1.length = _
      rw [wr_length a3, hp]) f4
  refine ⟨?_, by rw [← Option.some.inj hf]; exact q2⟩
  unfold ellRowInt
  simp only [f1, f2, Option.bind_eq_bind, Option.bind_some]
  rw [chk_mid (by omega) (by omega), Option.bind_some, g1, Option.bind_some, g2, Option.bind_some]
  exact hf

/-- **C09, overflow (F113).**  If the position of the first cell of the last row is not representable, the conversion is
undefined, however few entries the matrix has. -/
theorem C09_ell_overflow (bits : Nat) (m : Nat) (hm : 0 < m) (base : Int) (ptr ind : List Int) (val : List R) (w : Int)
    (ec : List Int) (ev : List R) (h : intMax bits < ((m : Int) - 1) * w) :
    csr2ellCoreInt bits m base ptr ind val w ec ev = none := by
  cases hr : csr2ellCoreInt bits m base ptr ind val w ec ev with
  | none => rfl
  | some r =>
    exfalso
    have := forC_keeps (a := 0) (b := m) (fun j (_ : List Int × List R) => ∀ i : Nat, i < j → (i : Int) * w ≤ intMax bits)
      (by omega) hr (by intro i hi; omega)
      (by
        intro i s s' _ _ hs hf k hk
        rcases Nat.lt_succ_iff_lt_or_eq.mp hk with hk | rfl
        · exact hs k hk
        · unfold ellRowInt at hf
          obtain ⟨rb, _, hf⟩ := Option.bind_eq_some_iff.mp hf
          obtain ⟨re, _, hf⟩ := Option.bind_eq_some_iff.mp hf
          obtain ⟨p, e, _⟩ := Option.bind_eq_some_iff.mp hf
          unfold chk at e
          split at e
          · rename_i hc
            exact hc.2
          · cases e) (m - 1) (by omega)
    rw [show ((m - 1 : Nat) : Int) = (m : Int) - 1 by omega] at this
    omega

/-! ### cases that meet the hypotheses -/

/-- two rows, width 2 -/
example := C09_ell_range (R := Int) 32 2 0 [0, 2, 3] [0, 1, 1] [5, 6, 7] 2 (by decide) [0, 0, 0, 0] [0, 0, 0, 0]
  (by decide) (by decide) ([0, 1, 1, -1], [5, 6, 7, 0]) (by decide)

/-- 65537 rows, one of them with 65536 entries -/
example (ptr ind ec : List Int) (val ev : List Int) :=
  C09_ell_overflow 32 65537 (by decide) 0 ptr ind val 65536 ec ev (by decide)

end Verif
