/-
Product with a CSR object for a given kernel identifier, and the choice among stored objects.
-/
import Verif.Model.Mv
import Verif.Proofs.MCopy
import Verif.Props.CsrmvSym
import Verif.Props.Csrmv

namespace Verif
open Model Finset

variable {R : Type} [CommRing R] [StarRing R] [DecidableEq R]

/-- the kernels are those of the library: conjugation is `star`, trivial for real types; registers
have lanes that add up; all threads requested for the transposed product take part -/
structure Model.MvSel.Ok (k : MvSel R) : Prop where
  cj : k.cj = star
  real : k.real = true → ∀ x : R, star x = x
  dbl : k.dbl = true → k.real = true
  gn : ∀ g, k.gn = some g → g.Ok
  gt : ∀ K, k.gt = some K → 0 < K
  nth : 0 < k.nth
  ord : k.ord.Perm (List.range k.nth)
  sym : ∀ K V, k.sym = some (K, V) → V.Ok K

/-- kinds of product whose result has as many rows as the arrays have columns -/
def trE (e : Nat) : Bool := decide (e = 2 ∨ e = 3 ∨ e = 14 ∨ e = 15 ∨ e = 18 ∨ e = 19)

/-- the triangle named by an identifier -/
def fillE (e : Nat) : Fill :=
  if e = 6 ∨ e = 7 ∨ e = 10 ∨ e = 11 ∨ 16 ≤ e then .upper else .lower

/-- the status of a product of kind `e` -/
def mvStat (k : MvSel R) (e : Nat) : Status :=
  if e = 0 then (if k.gn.isSome then .success else .invalidKid)
  else if e = 2 then (if k.gt.isSome then .success else .invalidKid)
  else if e = 3 then (if k.real then .notImplemented else .success)
  else if e < 4 then .notImplemented
  else if e < 12 then
    (if k.real = true ∨ e = 4 ∨ e = 6 ∨ e = 8 ∨ e = 11 then
      (if k.sym.isSome then .success else .invalidKid) else .success)
  else if e = 13 ∨ e = 17 ∨ ((e = 15 ∨ e = 19) ∧ k.real = true) then .notImplemented
  else .success

theorem doidOp_of (t : MType) (f : Fill) (op : Op) (D : Diag) (M : Mat R)
    (hh : t = .hermitian → RealDiag M) {e : Nat} (he : getDoid false t.code f.code op.code = e) :
    doidOp D e M = operator t f D op M := by
  rw [← he]
  exact C02_getDoid_meaning false t f op D M (by simp) hh

section csr
variable {k : MvSel R} {c : MCopy R} {M N : Nat} {e : Nat} {D : Diag} {f : Fill}
  {iu : Option (List Int)} {alpha beta : R} {x y : List R}

/-- what a call of the CSR kernels may assume -/
structure CsrCall (k : MvSel R) (c : MCopy R) (M N e : Nat) (D : Diag) (f : Fill)
    (iu : Option (List Int)) (x y : List R) : Prop where
  wf : (c.csr M N).WF
  hm : c.m = ((c.csr M N).m : Int)
  hn : c.n = ((c.csr M N).n : Int)
  lt : e < 20
  fill : 4 ≤ e → f = fillE e
  clean : 4 ≤ e → ∃ idl iul, c.idiag = some idl ∧ iu = some iul ∧ Clean (c.csr M N) idl iul
  square : 4 ≤ e → e < 12 → (c.csr M N).m = (c.csr M N).n
  herm : 8 ≤ e → e < 12 → RealDiag (c.csr M N).mat
  shape : 12 ≤ e → D = .nonUnit ∨ (c.csr M N).m ≤ (c.csr M N).n
  avx2 : k.dbl = true → e = 16 → D = .unit → ∀ i, i < (c.csr M N).m → upperCount (c.csr M N) i < 4
  xlen : (if trE e then (c.csr M N).m else (c.csr M N).n) ≤ x.length
  ylen : (if trE e then (c.csr M N).n else (c.csr M N).m) ≤ y.length

/-- what it delivers -/
def CsrDone (k : MvSel R) (c : MCopy R) (M N e : Nat) (D : Diag) (alpha beta : R) (x y : List R)
    (r : Option (Status × List R)) : Prop :=
  ∃ y', r = some (mvStat k e, y') ∧ (mvStat k e ≠ .success → y' = y) ∧
    (mvStat k e = .success → IsMv alpha beta (doidOp D e (c.csr M N).mat)
      (if trE e then (c.csr M N).n else (c.csr M N).m) (if trE e then (c.csr M N).m else (c.csr M N).n)
      x y y')

theorem csrDone_ok {r : Option (Status × List R)} {r' : Option (List R)} (hr : r = done r')
    (hst : mvStat k e = .success) {P : Mat R} {m n : Nat} (hP : P = doidOp D e (c.csr M N).mat)
    (hm : m = if trE e then (c.csr M N).n else (c.csr M N).m)
    (hn : n = if trE e then (c.csr M N).m else (c.csr M N).n)
    (h : ∃ y', r' = some y' ∧ IsMv alpha beta P m n x y y') :
    CsrDone k c M N e D alpha beta x y r := by
  obtain ⟨y', e1, e2⟩ := h
  refine ⟨y', by rw [hr, e1, hst]; rfl, fun h => absurd hst h, fun _ => ?_⟩
  rw [← hP, ← hm, ← hn]
  exact e2

theorem csrDone_err {r : Option (Status × List R)} (hr : r = some (mvStat k e, y))
    (hst : mvStat k e ≠ .success) : CsrDone k c M N e D alpha beta x y r :=
  ⟨y, hr, fun _ => rfl, fun h => absurd h hst⟩

theorem csrmvSymD_spec (hk : k.Ok) (h : CsrCall k c M N e D f iu x y) (h4 : 4 ≤ e) (h12 : e < 12) :
    CsrDone k c M N e D alpha beta x y (csrmvSymD k e alpha c D.code f.code iu x beta y) := by
  obtain ⟨idl, iul, hid, hiu, hcl⟩ := h.clean h4
  have hf := h.fill h4
  have hsq := h.square h4 h12
  have htr : trE e = false := by unfold trE; simp; omega
  have hwf := h.wf
  have hx := h.xlen
  have hy := h.ylen
  rw [htr] at hx hy
  simp only [Bool.false_eq_true, if_false] at hx hy
  have hst : mvStat k e = if k.real = true ∨ e = 4 ∨ e = 6 ∨ e = 8 ∨ e = 11 then
      (if k.sym.isSome then .success else .invalidKid) else .success := by
    unfold mvStat
    rw [if_neg (by omega), if_neg (by omega), if_neg (by omega), if_neg (by omega), if_pos h12]
  unfold csrmvSymD
  by_cases hc : k.real = true ∨ e = 4 ∨ e = 6 ∨ e = 8 ∨ e = 11
  · rw [if_pos hc] at hst
    rw [if_pos hc]
    cases hs : k.sym with
    | none =>
      rw [hs] at hst
      exact csrDone_err (by rw [hst]; rfl) (by rw [hst]; simp)
    | some KV =>
      obtain ⟨K, V⟩ := KV
      rw [hs] at hst
      simp only [Option.isSome_some, if_true] at hst
      dsimp only
      rw [hid, hiu]
      simp only [Option.bind_eq_bind, Option.bind_some]
      have hV := hk.sym K V hs
      rw [h.hm]
      by_cases hr : k.real = true
      · have hre := hk.real hr
        have hstar : (star : R → R) = id := funext hre
        rw [if_neg (by simp [hr]), hk.cj, hstar]
        have := (C19_symmetric V K hV (c.csr M N) hwf hsq idl iul hcl f D .none (by simp) alpha beta x y
          hx hy).1
        refine csrDone_ok rfl hst ?_ ?_ ?_ this
        · have h1 : ∀ X : Mat R, conjM X = X := fun X => by funext i j; simp [conjM, hre]
          have h2 : ∀ f, structured .hermitian f D (c.csr M N).mat = structured .symmetric f D (c.csr M N).mat := by
            intro f; funext i j; simp [structured, hre]
          rw [hf]
          have h3 : operator .symmetric (fillE e) D .none (c.csr M N).mat
              = structured .symmetric (fillE e) D (c.csr M N).mat := rfl
          rw [h3]
          clear h3 this hst hf hx hy htr hsq hcl hc
          have : e = 4 ∨ e = 5 ∨ e = 6 ∨ e = 7 ∨ e = 8 ∨ e = 9 ∨ e = 10 ∨ e = 11 := by omega
          rcases this with rfl | rfl | rfl | rfl | rfl | rfl | rfl | rfl <;>
            simp [doidOp, doidMeaning, fillE, h1, h2]
        · simp [htr]
        · simp [htr, hsq]
      · have hr' : k.real = false := by simpa using hr
        have hc' : e = 4 ∨ e = 6 ∨ e = 8 ∨ e = 11 := by simpa [hr'] using hc
        rw [hk.cj]
        by_cases h8 : e < 8
        · rw [if_pos ⟨hr', h8⟩]
          have := (C19_symmetric V K hV (c.csr M N) hwf hsq idl iul hcl f D .none (by simp) alpha beta x y
            hx hy).1
          refine csrDone_ok rfl hst ?_ ?_ ?_ this
          · subst hf
            have : e = 4 ∨ e = 6 := by omega
            rcases this with rfl | rfl <;> rfl
          · simp [htr]
          · simp [htr, hsq]
        · rw [if_neg (by omega)]
          have := (C19_hermitian V K hV (c.csr M N) hwf hsq idl iul hcl f D alpha beta x y hx hy).1
          refine csrDone_ok rfl hst ?_ ?_ ?_ this
          · subst hf
            have : e = 8 ∨ e = 11 := by omega
            rcases this with rfl | rfl <;> rfl
          · simp [htr]
          · simp [htr, hsq]
  · rw [if_neg hc] at hst
    rw [if_neg hc, hid]
    simp only [Option.bind_eq_bind, Option.bind_some]
    rw [hk.cj, h.hm]
    by_cases h8 : e < 8
    · rw [if_pos h8]
      refine csrDone_ok rfl hst ?_ ?_ ?_ (C19_symmetric_conj (c.csr M N) hwf hsq idl iul hcl f D alpha
        beta x y hx hy)
      · subst hf
        have : e = 5 ∨ e = 7 := by omega
        rcases this with rfl | rfl
        · exact (doidOp_of .symmetric .lower .conjTrans D _ (by simp) (by decide)).symm
        · exact (doidOp_of .symmetric .upper .conjTrans D _ (by simp) (by decide)).symm
      · simp [htr]
      · simp [htr, hsq]
    · rw [if_neg h8]
      refine csrDone_ok rfl hst ?_ ?_ ?_ (C19_hermitian_trans (c.csr M N) hwf hsq idl iul hcl f D alpha
        beta x y hx hy)
      · have hh := h.herm (by omega) h12
        subst hf
        have : e = 9 ∨ e = 10 := by omega
        rcases this with rfl | rfl
        · exact (doidOp_of .hermitian .lower .trans D _ (fun _ => hh) (by decide)).symm
        · exact (doidOp_of .hermitian .upper .trans D _ (fun _ => hh) (by decide)).symm
      · simp [htr]
      · simp [htr, hsq]

theorem csrmvTriD_spec (hk : k.Ok) (h : CsrCall k c M N e D f iu x y) (h12 : 12 ≤ e) :
    CsrDone k c M N e D alpha beta x y (csrmvTriD k e alpha c D.code f.code iu x beta y) := by
  obtain ⟨idl, iul, hid, hiu, hcl⟩ := h.clean (by omega)
  have hf := h.fill (by omega)
  have hwf := h.wf
  have hx := h.xlen
  have hy := h.ylen
  have hlt := h.lt
  have hsh := h.shape h12
  have hst : mvStat k e = if e = 13 ∨ e = 17 ∨ ((e = 15 ∨ e = 19) ∧ k.real = true) then .notImplemented
      else .success := by
    unfold mvStat
    rw [if_neg (by omega), if_neg (by omega), if_neg (by omega), if_neg (by omega), if_neg (by omega)]
  unfold csrmvTriD
  by_cases hn : e = 13 ∨ e = 17 ∨ ((e = 15 ∨ e = 19) ∧ k.real = true)
  · rw [if_pos hn] at hst ⊢
    exact csrDone_err (by rw [hst]) (by rw [hst]; simp)
  · rw [if_neg hn] at hst
    rw [if_neg hn, hid, hiu]
    simp only [Option.bind_eq_bind, Option.bind_some]
    rw [h.hm, h.hn]
    by_cases hN : e = 12 ∨ e = 16
    · have htr : trE e = false := by unfold trE; simp; omega
      rw [htr] at hx hy
      simp only [Bool.false_eq_true, if_false] at hx hy
      rw [if_pos hN]
      have hop : operator .triangular f D .none (c.csr M N).mat = doidOp D e (c.csr M N).mat := by
        subst hf
        rcases hN with rfl | rfl <;> rfl
      by_cases hd : k.dbl = true
      · rw [if_pos hd]
        refine csrDone_ok rfl hst hop (by simp [htr]) (by simp [htr])
          (C20_avx2 (c.csr M N) hwf idl iul hcl f D hsh ?_ alpha beta x y hx hy)
        intro hu hD
        refine h.avx2 hd ?_ hD
        rcases hN with rfl | rfl
        · rw [hf] at hu; simp [fillE] at hu
        · rfl
      · rw [if_neg hd]
        exact csrDone_ok rfl hst hop (by simp [htr]) (by simp [htr])
          (C20_triangular (c.csr M N) hwf idl iul hcl f D hsh alpha beta x y hx hy)
    · have htr : trE e = true := by unfold trE; simp; omega
      rw [htr] at hx hy
      simp only [if_true] at hx hy
      rw [if_neg hN]
      by_cases hT : e = 14 ∨ e = 18
      · rw [if_pos hT]
        refine csrDone_ok rfl hst ?_ (by simp [htr]) (by simp [htr])
          (C20_transpose (c.csr M N) hwf idl iul hcl f D hsh alpha beta x y hx hy)
        subst hf
        rcases hT with rfl | rfl <;> rfl
      · rw [if_neg hT, hk.cj]
        refine csrDone_ok rfl hst ?_ (by simp [htr]) (by simp [htr])
          (C20_conj_transpose (c.csr M N) hwf idl iul hcl f D hsh alpha beta x y hx hy)
        subst hf
        have : e = 15 ∨ e = 19 := by omega
        rcases this with rfl | rfl
        · exact (doidOp_of .triangular .lower .conjTrans D _ (by simp) (by decide)).symm
        · exact (doidOp_of .triangular .upper .conjTrans D _ (by simp) (by decide)).symm

theorem csrmvD_spec (hk : k.Ok) (h : CsrCall k c M N e D f iu x y) :
    CsrDone k c M N e D alpha beta x y (csrmvD k e alpha c D.code f.code iu x beta y) := by
  have hwf := h.wf
  have hx := h.xlen
  have hy := h.ylen
  have hlt := h.lt
  unfold csrmvD
  by_cases h0 : e = gn
  · rw [if_pos h0]
    have h0' : e = 0 := h0
    subst h0'
    simp only [trE] at hx hy
    simp at hx hy
    cases hg : k.gn with
    | none =>
      have hst : mvStat k 0 = .invalidKid := by simp [mvStat, hg]
      exact csrDone_err (by rw [hst]) (by rw [hst]; simp)
    | some g =>
      have hst : mvStat k 0 = .success := by simp [mvStat, hg]
      dsimp only
      rw [h.hm]
      exact csrDone_ok rfl hst rfl (by simp [trE]) (by simp [trE])
        (C17_value g (hk.gn g hg) (c.csr M N) hwf alpha beta x y hx hy)
  · rw [if_neg h0]
    by_cases h2 : e = gt
    · rw [if_pos h2]
      have h2' : e = 2 := h2
      subst h2'
      simp only [trE] at hx hy
      simp at hx hy
      cases hg : k.gt with
      | none =>
        have hst : mvStat k 2 = .invalidKid := by simp [mvStat, hg]
        exact csrDone_err (by rw [hst]) (by rw [hst]; simp)
      | some K =>
        have hst : mvStat k 2 = .success := by simp [mvStat, hg]
        dsimp only
        rw [h.hm, h.hn]
        exact csrDone_ok rfl hst rfl (by simp [trE]) (by simp [trE])
          (C18_transpose_kt (c.csr M N) hwf K (hk.gt K hg) alpha beta x y hx hy k.nth hk.nth k.ord hk.ord)
    · rw [if_neg h2]
      by_cases h3 : e = gh ∧ k.real = false
      · rw [if_pos h3]
        obtain ⟨h3, hr⟩ := h3
        have h3' : e = 3 := h3
        subst h3'
        simp only [trE] at hx hy
        simp at hx hy
        have hst : mvStat k 3 = .success := by simp [mvStat, hr]
        rw [h.hm, h.hn, hk.cj]
        exact csrDone_ok rfl hst rfl (by simp [trE]) (by simp [trE])
          (C18_conj_transpose (c.csr M N) hwf alpha beta x y hx hy)
      · rw [if_neg h3]
        have h0' : e ≠ 0 := h0
        have h2' : e ≠ 2 := h2
        by_cases h4 : e < 4
        · rw [if_pos h4]
          have : e = 1 ∨ (e = 3 ∧ k.real = true) := by
            by_cases he : e = 3
            · right
              refine ⟨he, ?_⟩
              by_contra hc
              exact h3 ⟨he, by simpa using hc⟩
            · left; omega
          have hst : mvStat k e = .notImplemented := by
            rcases this with rfl | ⟨rfl, hr⟩
            · simp [mvStat]
            · simp [mvStat, hr]
          exact csrDone_err (by rw [hst]) (by rw [hst]; simp)
        · rw [if_neg h4]
          by_cases h12 : e < 12
          · rw [if_pos h12]
            exact csrmvSymD_spec hk h (by omega) h12
          · rw [if_neg h12, if_pos hlt]
            exact csrmvTriD_spec hk h (by omega)

end csr

/-! ### choice -/

omit [CommRing R] [StarRing R] [DecidableEq R] in
theorem bestFrom_some {score : Stored R → Nat} : ∀ (l pre : List (Stored R)) (mx : Nat) (best : Option Nat)
    (i : Nat), (∀ i, best = some i → ∃ s, pre[i]? = some s ∧ 0 < score s) →
    bestFrom score l pre.length mx best = some i → ∃ s, (pre ++ l)[i]? = some s ∧ 0 < score s
  | [], pre, mx, best, i, hb, h => by
    simp only [bestFrom] at h
    obtain ⟨s, h1, h2⟩ := hb i h
    exact ⟨s, by simpa using h1, h2⟩
  | s :: l, pre, mx, best, i, hb, h => by
    unfold bestFrom at h
    have hl : pre.length + 1 = (pre ++ [s]).length := by simp
    have hext : ∀ (i : Nat) t, pre[i]? = some t → (pre ++ [s])[i]? = some t := by
      intro i t ht
      rw [List.getElem?_append_left (List.getElem?_eq_some_iff.1 ht).1, ht]
    by_cases hs : score s > mx
    · rw [if_pos hs, hl] at h
      have := bestFrom_some l (pre ++ [s]) (score s) (some pre.length) i (by
        intro j hj
        cases hj
        exact ⟨s, by simp, by omega⟩) h
      simpa using this
    · rw [if_neg hs, hl] at h
      have := bestFrom_some l (pre ++ [s]) mx best i (by
        intro j hj
        obtain ⟨t, h1, h2⟩ := hb j hj
        exact ⟨t, hext j t h1, h2⟩) h
      simpa using this

omit [CommRing R] [StarRing R] [DecidableEq R] in
theorem bestFrom_isSome {score : Stored R → Nat} : ∀ (l : List (Stored R)) (i mx : Nat) (best : Option Nat),
    (best.isSome ∨ (∃ s ∈ l, mx < score s)) → (bestFrom score l i mx best).isSome
  | [], i, mx, best, h => by
    rcases h with h | ⟨s, hs, _⟩
    · exact h
    · simp at hs
  | s :: l, i, mx, best, h => by
    unfold bestFrom
    by_cases hs : score s > mx
    · rw [if_pos hs]
      exact bestFrom_isSome l _ _ _ (.inl rfl)
    · rw [if_neg hs]
      refine bestFrom_isSome l _ _ _ ?_
      rcases h with h | ⟨t, ht, h⟩
      · exact .inl h
      · rcases List.mem_cons.1 ht with rfl | ht
        · omega
        · exact .inr ⟨t, ht, h⟩

omit [CommRing R] [StarRing R] [DecidableEq R] in
/-- the chosen object can do the product -/
theorem getBest_some {isa : Isa} {k : MvSel R} {req i : Nat} {mats : List (Stored R)}
    (h : getBest isa k req mats = some i) :
    ∃ s, mats[i]? = some s ∧ effDoid s.doid req < 20 ∧
      archScore isa k.real k.dbl s.fmt (effDoid s.doid req) ≠ 0 := by
  obtain ⟨s, h1, h2⟩ := bestFrom_some mats [] 0 none i (by simp) h
  refine ⟨s, by simpa using h1, ?_⟩
  unfold mvScore at h2
  dsimp only at h2
  split at h2
  · omega
  · rename_i hn
    refine ⟨?_, fun hc => hn (.inr hc)⟩
    by_contra hc
    exact hn (.inl (by unfold doidScore; rw [if_pos (by unfold doidLen; omega)]))

omit [CommRing R] [StarRing R] [DecidableEq R] in
theorem getBest_isSome {isa : Isa} {k : MvSel R} {req : Nat} {mats : List (Stored R)} {s : Stored R}
    (hs : s ∈ mats) (h1 : effDoid s.doid req < 20)
    (h2 : archScore isa k.real k.dbl s.fmt (effDoid s.doid req) ≠ 0) :
    ∃ i, getBest isa k req mats = some i := by
  have hd : ∀ e < 20, doidScore e ≠ 0 := by decide
  have : (getBest isa k req mats).isSome := by
    refine bestFrom_isSome mats 0 0 none (.inr ⟨s, hs, ?_⟩)
    unfold mvScore
    dsimp only
    rw [if_neg (by rintro (h | h); exact hd _ h1 h; exact h2 h)]
    have := hd _ h1
    omega
  exact Option.isSome_iff_exists.1 this

end Verif
