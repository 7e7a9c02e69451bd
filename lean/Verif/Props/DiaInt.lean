/-
C12  The conversion to DIA in the integer type of the library.
-/
import Verif.Model.DiaInt
import Verif.Props.Dia
import Verif.Props.MvStats

namespace Verif
open Model

theorem forN_lift {σ : Type} {f g : Int → σ → Option σ} {P : σ → Prop} (k : Nat) :
    ∀ (lo : Int) (s t : σ), P s →
      (∀ i s s', lo ≤ i → i < lo + k → P s → f i s = some s' → g i s = some s' ∧ P s') →
      forN f k lo s = some t → forN g k lo s = some t ∧ P t := by
  induction k with
  | zero =>
    intro lo s t hP _ h
    have : s = t := Option.some.inj h
    subst this
    exact ⟨rfl, hP⟩
  | succ k ih =>
    intro lo s t hP hs h
    rw [forN] at h
    obtain ⟨s1, e1, e2⟩ := Option.bind_eq_some_iff.mp h
    obtain ⟨g1, p1⟩ := hs lo s s1 le_rfl (by push_cast; omega) hP e1
    rw [forN, g1]
    exact ih (lo + 1) s1 t p1 (fun i s s' a b => hs i s s' (by omega) (by push_cast; omega)) e2

/-- a loop that ends also ends with a body that agrees with every successful step -/
theorem forC_lift {σ : Type} {f g : Int → σ → Option σ} {lo hi : Int} {s t : σ} (P : σ → Prop) (hP : P s)
    (hs : ∀ i s s', lo ≤ i → i < hi → P s → f i s = some s' → g i s = some s' ∧ P s')
    (h : forC lo hi f s = some t) : forC lo hi g s = some t ∧ P t :=
  forN_lift (hi - lo).toNat lo s t hP (fun i s s' a b => hs i s s' a (by omega)) h

theorem chk_mid {w : Nat} {x : Int} (h0 : -intMax w ≤ x) (h : x ≤ intMax w) : chk w x = some x := by
  unfold chk
  rw [if_pos]
  unfold intMin intMax at *
  omega

theorem diaMark_lift {w : Nat} {m n base : Int} {ind : List Int} {i j : Int} {d d' : List Int} (hn : 0 ≤ n)
    (hmn : m + n ≤ intMax w) (hi : 0 ≤ i) (him : i < m) (hd : d.length = (m + n).toNat)
    (h : diaMark m base ind i j d = some d') :
    diaMarkInt w m base ind i j d = some d' ∧ d'.length = (m + n).toNat := by
  unfold diaMark at h
  obtain ⟨c, e1, h⟩ := Option.bind_eq_some_iff.mp h
  obtain ⟨x, e2, h⟩ := Option.bind_eq_some_iff.mp h
  have hr := rd_isSome_iff.mp (Option.isSome_iff_exists.mpr ⟨x, e2⟩)
  constructor
  · unfold diaMarkInt
    simp only [e1, Option.bind_eq_bind, Option.bind_some]
    rw [chk_mid (by omega) (by omega), Option.bind_some, chk_mid (by omega) (by omega), Option.bind_some,
      chk_mid (by omega) (by omega), Option.bind_some, e2]
    exact h
  · split at h
    · rw [wr_length h, hd]
    · rw [← Option.some.inj h, hd]

theorem diaPut_lift {R : Type} {w : Nat} {m n base : Int} {ind : List Int} {val : List R} {idx : List Int} {i j : Int}
    {dv dv' : List R} {L : Nat} (hn : 0 ≤ n) (hmn : m + n ≤ intMax w) (hi : 0 ≤ i) (him : i < m)
    (hd : idx.length = (m + n).toNat) (hL : (L : Int) ≤ intMax w) (hv : dv.length = L)
    (h : diaPut m base ind val idx i j dv = some dv') :
    diaPutInt w m base ind val idx i j dv = some dv' ∧ dv'.length = L := by
  unfold diaPut at h
  obtain ⟨c, e1, h⟩ := Option.bind_eq_some_iff.mp h
  obtain ⟨v, e2, h⟩ := Option.bind_eq_some_iff.mp h
  obtain ⟨q, e3, h⟩ := Option.bind_eq_some_iff.mp h
  have hr := rd_isSome_iff.mp (Option.isSome_iff_exists.mpr ⟨q, e3⟩)
  have hw := wr_some_iff.mp h
  refine ⟨?_, by rw [wr_length h, hv]⟩
  unfold diaPutInt
  simp only [e1, Option.bind_eq_bind, Option.bind_some]
  rw [chk_mid (by omega) (by omega), Option.bind_some, chk_mid (by omega) (by omega), Option.bind_some,
    chk_mid (by omega) (by omega), Option.bind_some, e2, Option.bind_some, e3, Option.bind_some,
    chk_mid (by omega) (by omega), Option.bind_some, chk_mid (by omega) (by omega), Option.bind_some]
  exact h

theorem diaNumber_len {m i : Int} {s s' : List Int × List Int × Int} (h : diaNumber m i s = some s') :
    s'.1.length = s.1.length := by
  unfold diaNumber at h
  obtain ⟨x, _, h⟩ := Option.bind_eq_some_iff.mp h
  split at h
  · obtain ⟨d, e1, h⟩ := Option.bind_eq_some_iff.mp h
    obtain ⟨o, _, h⟩ := Option.bind_eq_some_iff.mp h
    rw [← Option.some.inj h]
    exact wr_length e1
  · rw [← Option.some.inj h]

/-- **C12, range.**  If the number of rows plus the number of columns and the length of the array of values are
representable, the conversion to DIA in the integers of the library does what it does in unbounded integers. -/
theorem C12_dia_range {R : Type} (w : Nat) (m n base : Int) (hm : 0 ≤ m) (hn : 0 ≤ n) (ptr ind : List Int) (val : List R)
    (nd : Int) (off : List Int) (dval : List R) (hmn : m + n ≤ intMax w) (hL : (dval.length : Int) ≤ intMax w)
    (r : List Int × List R) (h : csr2dia m n base ptr ind val nd off dval = some r) :
    csr2diaInt w m n base ptr ind val nd off dval = some r := by
  unfold csr2dia at h
  unfold csr2diaInt
  split at h
  · rename_i h0
    rw [if_pos h0]
    exact h
  rename_i h0
  rw [if_neg h0]
  obtain ⟨idx, e1, h⟩ := Option.bind_eq_some_iff.mp h
  obtain ⟨s, e2, h⟩ := Option.bind_eq_some_iff.mp h
  obtain ⟨dv, e3, h⟩ := Option.bind_eq_some_iff.mp h
  simp only [Option.bind_eq_bind]
  rw [chk_mid (by omega) hmn, Option.bind_some]
  obtain ⟨g1, p1⟩ := forC_lift (fun d : List Int => d.length = (m + n).toNat) (by simp)
    (g := fun i s => (rd ptr i).bind fun b => (rd ptr (i + 1)).bind fun e =>
      forC (b - base) (e - base) (diaMarkInt w m base ind i) s)
    (by
      intro i d d' hi him hd hf
      obtain ⟨b, f1, hf⟩ := Option.bind_eq_some_iff.mp hf
      obtain ⟨e, f2, hf⟩ := Option.bind_eq_some_iff.mp hf
      rw [f1, Option.bind_some, f2, Option.bind_some]
      exact forC_lift (fun d : List Int => d.length = (m + n).toNat) hd
        (fun j d d' _ _ hd hf => diaMark_lift hn hmn hi him hd hf) hf) e1
  rw [g1, Option.bind_some, e2, Option.bind_some]
  have p2 : s.1.length = (m + n).toNat :=
    (forC_lift (g := diaNumber m) (fun s : List Int × List Int × Int => s.1.length = (m + n).toNat) p1
      (fun i s s' _ _ hs hf => ⟨hf, by rw [diaNumber_len hf, hs]⟩) e2).2
  obtain ⟨g3, _⟩ := forC_lift (fun d : List R => d.length = dval.length) rfl
    (g := fun i dv => (rd ptr i).bind fun b => (rd ptr (i + 1)).bind fun e =>
      forC (b - base) (e - base) (diaPutInt w m base ind val s.1 i) dv)
    (by
      intro i d d' hi him hd hf
      obtain ⟨b, f1, hf⟩ := Option.bind_eq_some_iff.mp hf
      obtain ⟨e, f2, hf⟩ := Option.bind_eq_some_iff.mp hf
      rw [f1, Option.bind_some, f2, Option.bind_some]
      exact forC_lift (fun d : List R => d.length = dval.length) hd
        (fun j d d' _ _ hd hf => diaPut_lift hn hmn hi him p2 hL hd hf) hf) e3
  rw [g3]
  exact h

/-- **C12, overflow (F112).**  If the number of rows plus the number of columns is not representable, the conversion is
undefined for every matrix with at least one diagonal. -/
theorem C12_dia_overflow {R : Type} (w : Nat) (m n base : Int) (hm : 0 < m) (hn : 0 < n) (ptr ind : List Int)
    (val : List R) (nd : Int) (hd : nd ≠ 0) (off : List Int) (dval : List R) (h : intMax w < m + n) :
    csr2diaInt w m n base ptr ind val nd off dval = none := by
  unfold csr2diaInt
  rw [if_neg (by omega)]
  have : chk w (m + n) = none := by
    unfold chk
    rw [if_neg (by omega)]
  rw [this]
  rfl

/-- **C12, overflow of a position (F112).**  Storing an entry of row `i` on the diagonal with number `q` is undefined if its
position `i + m * q` in the array of values is not representable, whatever the length of that array. -/
theorem C12_dia_put_overflow {R : Type} (w : Nat) (m base : Int) (ind : List Int) (val : List R) (idx : List Int)
    (i j c q : Int) (dv : List R) (hc : rd ind j = some c) (hq : rd idx (c - base - i + m) = some q)
    (h : intMax w < i + m * q) : diaPutInt w m base ind val idx i j dv = none := by
  cases hr : diaPutInt w m base ind val idx i j dv with
  | none => rfl
  | some r =>
    exfalso
    unfold diaPutInt at hr
    obtain ⟨c', e1, hr⟩ := Option.bind_eq_some_iff.mp hr
    obtain ⟨a, e2, hr⟩ := Option.bind_eq_some_iff.mp hr
    obtain ⟨b, e3, hr⟩ := Option.bind_eq_some_iff.mp hr
    obtain ⟨o, e4, hr⟩ := Option.bind_eq_some_iff.mp hr
    obtain ⟨v, _, hr⟩ := Option.bind_eq_some_iff.mp hr
    obtain ⟨q', e5, hr⟩ := Option.bind_eq_some_iff.mp hr
    obtain ⟨p, e6, hr⟩ := Option.bind_eq_some_iff.mp hr
    obtain ⟨k, e7, _⟩ := Option.bind_eq_some_iff.mp hr
    rw [hc] at e1
    have hcc := Option.some.inj e1
    subst hcc
    rw [chk_eq e4, chk_eq e3, chk_eq e2, hq] at e5
    have hqq := Option.some.inj e5
    subst hqq
    rw [chk_eq e6] at e7
    unfold chk at e7
    rw [if_neg (by omega)] at e7
    cases e7

/-! ### cases that meet the hypotheses -/

/-- two rows, diagonals 0 and 1 -/
example := C12_dia_range (R := Int) 32 2 3 0 (by decide) (by decide) [0, 2, 3] [0, 1, 1] [5, 6, 7] 2 [0, 0] [0, 0, 0, 0]
  (by decide) (by decide) ([0, 1], [5, 7, 6, 0]) (by decide)

/-- 2^30 rows and columns -/
example := C12_dia_overflow (R := Int) 32 (2 ^ 30) (2 ^ 30) 0 (by decide) (by decide) [] [] [] 1 (by decide) [] []
  (by decide)

/-- 65536 rows, the main diagonal has number 40000 -/
example (idx : List Int) (h : rd idx 65536 = some 40000) (dv : List Int) :=
  C12_dia_put_overflow 32 65536 0 [0] [1] idx 0 0 0 40000 dv rfl h (by decide)

end Verif
