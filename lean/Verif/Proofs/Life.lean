/-
Every call that ends keeps a handle correct, whatever its arguments and whatever its status.
-/
import Verif.Props.History
import Verif.Props.CgGs
import Verif.Props.GmIlu
import Verif.Props.Dotmv
import Verif.Props.Trsm
import Verif.Model.Life

namespace Verif
open Model Finset

section ring
variable {R : Type} [CommRing R] [StarRing R] [DecidableEq R] {ta : Bool} {A : Csr R}

/-- a handle just created -/
theorem fresh_ok (hA : A.WF) {sorted : Bool} (hs : sorted = true → A.Sorted) :
    HandleOk ta A (.fresh (A.raw ta) sorted) := by
  refine ⟨rfl, ⟨none, false, none, [], rfl⟩, ?_, hs, fun s h ho => by
    rw [List.mem_singleton.1 h] at ho; cases ho⟩
  intro s h
  rw [List.mem_singleton.1 h]
  obtain ⟨k1, k2⟩ := copy0_idiag_ok hA ta none
  exact ⟨k1, by
    show _ = (((({ (A.raw ta).copy0 with idiag := none } : MCopy R).csr _ _)).n : Int)
    rw [k2]; rfl, fun _ => ⟨rfl, rfl⟩, fun h => by cases h⟩

/-- changing the diagonal of a copy, whatever the outcome -/
theorem setDiag_stored {c : MCopy R} {opt : Bool} {iu : Option (List Int)} (hs : StoredOk ta A (.csr c opt iu))
    {diag : Nat} {r : Status × MCopy R} (e : setMatDiag (userRows ta A : Int) diag c = some r) :
    StoredOk ta A (.csr r.2 opt iu) ∧ (r.1 = .success → 4 ≤ c.doid) ∧ (r.1 ≠ .success → r.2 = c) := by
  obtain ⟨hcp, hn, hlow, ho⟩ := hs
  by_cases h4 : 4 ≤ c.doid
  swap
  · have hdv := hlow (by omega)
    have hsd : setMatDiag (userRows ta A : Int) diag c = some (.invalidPointer, c) := by
      unfold setMatDiag
      rw [hdv.1]
      cases c.idiag <;> rfl
    rw [hsd] at e
    cases e
    exact ⟨⟨hcp, hn, hlow, ho⟩, (by simp), fun _ => rfl⟩
  have hdiag : ∃ D : Diag, D.code = diag := by
    obtain ⟨-, idg, dv, hid, hdv, -⟩ := hcp.sym h4
    unfold setMatDiag at e
    simp only [hid, hdv] at e
    by_cases h0 : diag = 0
    · exact ⟨.nonUnit, h0.symm⟩
    rw [if_neg h0] at e
    by_cases h1 : diag = 1
    · exact ⟨.unit, h1.symm⟩
    by_cases h2 : diag = 2
    · exact ⟨.zero, h2.symm⟩
    rw [if_neg h1, if_neg h2] at e
    cases e
  obtain ⟨D, rfl⟩ := hdiag
  obtain ⟨c', s1, s2, s3, s4, s5, -⟩ := setMatDiag_ok hcp h4 D
  rw [s1] at e
  cases e
  refine ⟨⟨s4, ?_, fun hlt => absurd hlt (by rw [s2]; omega), ?_⟩, fun _ => h4, fun h => absurd rfl h⟩
  · have h1 : c'.n = c.n := by rw [s5]
    rw [h1, hn]
    simp only [MCopy.csr, s2]
  · intro hopt
    have := (ho hopt).1
    have h2 := raw_doid_le A ta
    omega

/-- the same in a handle -/
theorem setDiag_keeps {H : MvHandle R} (hH : HandleOk ta A H) {i : Nat} {c : MCopy R} {opt : Bool}
    {iu : Option (List Int)} (hi : H.mats[i]? = some (.csr c opt iu)) {diag : Nat} {r : Status × MCopy R}
    (e : setMatDiag H.raw.um diag c = some r) (hr : r.1 = .success) :
    HandleOk ta A { H with mats := H.mats.set i (.csr r.2 opt iu) } := by
  have hum : H.raw.um = (userRows ta A : Int) := by rw [hH.raw]; cases ta <;> rfl
  rw [hum] at e
  obtain ⟨h1, h2, -⟩ := setDiag_stored (hH.all _ (List.mem_of_getElem? hi)) e
  exact hH.set hi (h2 hr) h1

/-- the changes of the CSR objects of a list -/
def CopyStep (ta : Bool) (A : Csr R) (c c' : MCopy R) : Prop :=
  ∀ opt iu, StoredOk ta A (.csr c opt iu) → StoredOk ta A (.csr c' opt iu)

theorem CopyStep.refl (L : List (MCopy R)) : List.Forall₂ (CopyStep ta A) L L :=
  List.forall₂_same.2 fun _ _ _ _ h => h

theorem putCopies_ok {L : List (Stored R)} : ∀ {cs : List (MCopy R)},
    List.Forall₂ (CopyStep ta A) (L.filterMap Stored.csr?) cs → (∀ s ∈ L, StoredOk ta A s) →
    (∀ s ∈ putCopies L cs, StoredOk ta A s) ∧ (putCopies L cs).map Stored.opt = L.map Stored.opt := by
  induction L with
  | nil => intro cs _ _; exact ⟨by simp [putCopies], rfl⟩
  | cons s L ih =>
    intro cs h hs
    have hs' : ∀ s ∈ L, StoredOk ta A s := fun x hx => hs x (List.mem_cons_of_mem _ hx)
    have h0 := hs s List.mem_cons_self
    cases s with
    | csr c o iu =>
      replace h : List.Forall₂ (CopyStep ta A) (c :: L.filterMap Stored.csr?) cs := h
      cases h with
      | cons h1 h2 =>
        obtain ⟨k1, k2⟩ := ih h2 hs'
        refine ⟨fun x hx => ?_, ?_⟩
        · rcases List.mem_cons.1 hx with rfl | hx
          · exact h1 o iu h0
          · exact k1 x hx
        · exact congrArg (o :: ·) k2
    | blk b nR p i m v =>
      obtain ⟨k1, k2⟩ := ih (cs := cs) h hs'
      have e : putCopies (.blk b nR p i m v :: L) cs = .blk b nR p i m v :: putCopies L cs := by cases cs <;> rfl
      rw [e]
      refine ⟨fun x hx => ?_, congrArg (_ :: ·) k2⟩
      rcases List.mem_cons.1 hx with rfl | hx
      · exact h0
      · exact k1 x hx
    | hyb b w em ec ev map =>
      obtain ⟨k1, k2⟩ := ih (cs := cs) h hs'
      have e : putCopies (.hyb b w em ec ev map :: L) cs = .hyb b w em ec ev map :: putCopies L cs := by cases cs <;> rfl
      rw [e]
      refine ⟨fun x hx => ?_, congrArg (_ :: ·) k2⟩
      rcases List.mem_cons.1 hx with rfl | hx
      · exact h0
      · exact k1 x hx
    | br4 b B =>
      obtain ⟨k1, k2⟩ := ih (cs := cs) h hs'
      have e : putCopies (.br4 b B :: L) cs = .br4 b B :: putCopies L cs := by cases cs <;> rfl
      rw [e]
      refine ⟨fun x hx => ?_, congrArg (_ :: ·) k2⟩
      rcases List.mem_cons.1 hx with rfl | hx
      · exact h0
      · exact k1 x hx

theorem HandleOk.put {H : MvHandle R} (hH : HandleOk ta A H) {s : Stored R} {rest : List (Stored R)}
    (hm : H.mats = s :: rest) {cs : List (MCopy R)}
    (h : List.Forall₂ (CopyStep ta A) (rest.filterMap Stored.csr?) cs) :
    HandleOk ta A { H with mats := s :: putCopies rest cs } := by
  have hs := hH.all
  rw [hm] at hs
  obtain ⟨k1, k2⟩ := putCopies_ok h (fun x hx => hs x (List.mem_cons_of_mem _ hx))
  refine ⟨hH.raw, ?_, ?_, hH.sorted, ?_⟩
  · obtain ⟨idl, o, iu, rest', hf⟩ := hH.first
    rw [hm] at hf
    cases hf
    exact ⟨idl, o, iu, _, rfl⟩
  · intro x hx
    rcases List.mem_cons.1 hx with rfl | hx
    · exact hs x List.mem_cons_self
    · exact k1 x hx
  · intro x hx hopt
    have hmem : true ∈ H.mats.map Stored.opt := by
      rw [hm, List.map_cons, ← k2, ← List.map_cons]
      exact hopt ▸ List.mem_map_of_mem hx
    obtain ⟨y, hy, ho⟩ := List.mem_map.1 hmem
    exact hH.full y hy ho

theorem findCopy_split {req : Nat} : ∀ {L : List (MCopy R)} {pre post : List (MCopy R)} {x : MCopy R},
    findCopy req L = some (pre, x, post) → L = pre ++ x :: post := by
  intro L
  induction L with
  | nil => intro _ _ _ e; cases e
  | cons c L ih =>
    intro pre post x e
    unfold findCopy at e
    rcases ite_or e with ⟨-, e⟩ | ⟨-, e⟩
    · cases e; rfl
    · cases h : findCopy req L with
      | none => rw [h] at e; cases e
      | some r =>
        rw [h] at e
        cases e
        rw [ih h]
        rfl

theorem csrmm_copies [DecidableEq R] {w : Nat} {isReal : Bool} {tm : MmTeam} {ker : MmKernel R} {g : Garb R} {cj : R → R} {op : Int}
    {alpha beta : R} {copies : List (MCopy R)} {d : Option Descr} {order : Int} {B C : Option (List R)}
    {n ldb ldc : Int} {r : Status × Option (List R) × List (MCopy R)}
    (hcp : ∀ c ∈ copies, ∃ opt iu, StoredOk ta A (.csr c opt iu))
    (e : csrmm w isReal tm ker g cj op alpha (some (A.raw ta)) copies d order B n ldb beta C ldc = some r) :
    List.Forall₂ (CopyStep ta A) copies r.2.2 := by
  have hum : (A.raw ta).um = (userRows ta A : Int) := by cases ta <;> rfl
  unfold csrmm at e
  rcases d with _ | d <;> rcases B with _ | B <;> rcases C with _ | C <;> try (cases e; exact CopyStep.refl _)
  dsimp only at e
  iterate 9
    (rcases ite_or e with ⟨-, e'⟩ | ⟨-, e'⟩
     · cases e'; exact CopyStep.refl _
     replace e := e'; clear e')
  simp only [Option.bind_eq_some_iff] at e
  obtain ⟨q, eq, e⟩ := e
  cases e
  unfold mmRun at eq
  dsimp only at eq
  iterate 3
    (rcases ite_or eq with ⟨-, e'⟩ | ⟨-, e'⟩
     · cases e'; exact CopyStep.refl _
     replace eq := e'; clear e')
  rcases ite_or eq with ⟨-, eq⟩ | ⟨-, eq⟩
  · simp only [Option.bind_eq_some_iff] at eq
    obtain ⟨z, -, eq⟩ := eq
    cases eq; exact CopyStep.refl _
  split at eq
  · rename_i pre x post hfc
    have hL := findCopy_split hfc
    simp only [Option.bind_eq_some_iff] at eq
    obtain ⟨z, ez, eq⟩ := eq
    cases eq
    show List.Forall₂ (CopyStep ta A) copies z.2.2.tail
    suffices h : List.Forall₂ (CopyStep ta A) ((A.raw ta).copy0 :: copies) z.2.2 by
      revert h
      generalize z.2.2 = L
      intro h
      cases h
      assumption
    rw [hL]
    have hstep : ∀ {y : MCopy R}, CopyStep ta A x y → List.Forall₂ (CopyStep ta A) (pre ++ x :: post) (pre ++ y :: post) :=
      fun h => List.rel_append (CopyStep.refl _) (.cons h (CopyStep.refl _))
    unfold mmUseCopy at ez
    dsimp only at ez
    rcases ite_or ez with ⟨-, ez⟩ | ⟨-, ez⟩
    · simp only [Option.bind_eq_some_iff] at ez
      obtain ⟨y, ey, ez⟩ := ez
      rw [hum] at ey
      have hy : CopyStep ta A x y.2 := fun opt iu hs => (setDiag_stored hs ey).1
      rcases ite_or ez with ⟨-, ez⟩ | ⟨-, ez⟩
      · cases ez; exact hstep hy
      · simp only [Option.bind_eq_some_iff] at ez
        obtain ⟨C1, -, ez⟩ := ez
        cases ez; exact hstep hy
    · simp only [Option.bind_eq_some_iff] at ez
      obtain ⟨C1, -, ez⟩ := ez
      cases ez; exact hstep fun _ _ h => h
  · simp only [Option.bind_eq_some_iff] at eq
    obtain ⟨z, -, eq⟩ := eq
    cases eq; exact CopyStep.refl _

theorem filterMap_csr {H : MvHandle R} (hH : HandleOk ta A H) {s : Stored R} {rest : List (Stored R)}
    (hm : H.mats = s :: rest) : ∀ c ∈ rest.filterMap Stored.csr?, ∃ opt iu, StoredOk ta A (.csr c opt iu) := by
  intro c hc
  obtain ⟨x, hx, hxc⟩ := List.mem_filterMap.1 hc
  have := hH.all x (by rw [hm]; exact List.mem_cons_of_mem _ hx)
  cases x with
  | csr c' o iu => cases hxc; exact ⟨o, iu, this⟩
  | blk _ _ _ _ _ _ => cases hxc
  | hyb _ _ _ _ _ _ => cases hxc
  | br4 _ _ => cases hxc

/-- **products with a dense matrix** -/
theorem csrmm_keeps [DecidableEq R] {H : MvHandle R} (hH : HandleOk ta A H) {w : Nat} {isReal : Bool} {tm : MmTeam}
    {ker : MmKernel R} {g : Garb R} {cj : R → R} {same : Bool} {op : Int} {alpha beta : R} {d : Option Descr}
    {order : Int} {B C C' : Option (List R)} {n ldb ldc : Int} {st : Status} {H' : MvHandle R}
    (e : csrmmH w isReal tm ker g cj same op alpha (some H) d order B n ldb beta C ldc = some (st, C', some H')) :
    HandleOk ta A H' := by
  unfold csrmmH at e
  dsimp only at e
  rcases ite_or e with ⟨-, e⟩ | ⟨-, e⟩
  · cases e; exact hH
  split at e
  · cases e; exact hH
  · rename_i s rest hm
    simp only [Option.bind_eq_bind, Option.bind_eq_some_iff] at e
    obtain ⟨r, er, e⟩ := e
    cases e
    rw [hH.raw] at er
    have hn := hH.raw
    exact hH.put hm (csrmm_copies (filterMap_csr hH hm) er)

/-! ### changes of the values -/

theorem setValue_fails {H H' : MvHandle R} {same : Bool} {row col : Int} {v : R} {st : Status} (hst : st ≠ .success)
    (e : setValue same (some H) row col v = some (st, some H')) : H' = H := by
  unfold setValue at e
  dsimp only at e
  split at e
  · cases e; rfl
  · iterate 2
      (rcases ite_or e with ⟨-, e'⟩ | ⟨-, e'⟩
       · cases e'; rfl
       replace e := e'; clear e')
    simp only [Option.bind_eq_bind, Option.bind_eq_some_iff] at e
    obtain ⟨r, -, e⟩ := e
    rcases ite_or e with ⟨-, e⟩ | ⟨-, e⟩
    · cases e; rfl
    · cases e; exact absurd rfl hst
  · cases e; rfl

theorem updateValues_fails {H H' : MvHandle R} {same : Bool} {len : Int} {v : Option (List R)} {st : Status}
    (hst : st ≠ .success) (e : updateValues same (some H) len v = some (st, some H')) : H' = H := by
  unfold updateValues at e
  rcases v with _ | v
  · cases e; rfl
  dsimp only at e
  split at e
  · cases e; rfl
  · iterate 2
      (rcases ite_or e with ⟨-, e'⟩ | ⟨-, e'⟩
       · cases e'; rfl
       replace e := e'; clear e')
    simp only [Option.bind_eq_bind, Option.bind_eq_some_iff] at e
    obtain ⟨r, -, e⟩ := e
    cases e; exact absurd rfl hst
  · cases e; rfl

/-- a successful change of one value: the coordinate is inside, and the types agree -/
theorem setValue_inside {H H' : MvHandle R} (hH : HandleOk ta A H) {same : Bool} {row col : Int} {v : R}
    (e : setValue same (some H) row col v = some (.success, some H')) :
    same = true ∧ ∃ i j : Nat, i < userRows ta A ∧ j < userCols ta A ∧ row = i + A.base ∧ col = j + A.base := by
  obtain ⟨idl, o, iu, rest, hf⟩ := hH.first
  have hum : H.raw.um = (userRows ta A : Int) := by rw [hH.raw]; cases ta <;> rfl
  have hun : H.raw.un = (userCols ta A : Int) := by rw [hH.raw]; cases ta <;> rfl
  unfold setValue at e
  dsimp only at e
  rw [hf] at e
  dsimp only at e
  rcases ite_or e with ⟨-, e⟩ | ⟨hr, e⟩
  · cases e
  rcases ite_or e with ⟨-, e⟩ | ⟨hs, e⟩
  · cases e
  refine ⟨by simpa using hs, ?_⟩
  have hb : ({ (A.raw ta).copy0 with idiag := idl } : MCopy R).base = A.base := rfl
  rw [hb, hum, hun] at hr
  unfold outOfRange at hr
  simp only [decide_eq_true_eq, not_or, not_le, not_lt] at hr
  exact ⟨(row - A.base).toNat, (col - A.base).toNat, by omega, by omega, by omega, by omega⟩

/-- a successful change of all values: the first values of the user's array, which may be longer -/
theorem updateValues_front {H H' : MvHandle R} (hH : HandleOk ta A H) (hA : A.WF) {same : Bool} {len : Int}
    {v : Option (List R)} (e : updateValues same (some H) len v = some (.success, some H')) :
    ∃ v', v = some v' ∧ A.nnz ≤ v'.length ∧ len = A.nnz ∧ same = true ∧
      updateValues true (some H) (v'.take A.nnz).length (some (v'.take A.nnz)) = some (.success, some H') := by
  obtain ⟨idl, o, iu, rest, hf⟩ := hH.first
  have hnz : H.raw.nnz = (A.nnz : Int) := by rw [hH.raw]; rfl
  rcases v with _ | v
  · cases e
  unfold updateValues at e ⊢
  dsimp only at e
  rw [hf] at e
  dsimp only at e
  rcases ite_or e with ⟨-, e⟩ | ⟨hl, e⟩
  · cases e
  rcases ite_or e with ⟨-, e⟩ | ⟨hs, e⟩
  · cases e
  rw [hnz] at hl
  simp only [ne_eq, not_not] at hl
  subst hl
  simp only [Option.bind_eq_bind, Option.bind_eq_some_iff] at e
  obtain ⟨w, hw, e⟩ := e
  have hval : ({ (A.raw ta).copy0 with idiag := idl } : MCopy R).val = A.val := by cases ta <;> rfl
  have hvl : A.val.length = A.nnz := hA.val_len
  unfold copyVals at hw
  rcases ite_or hw with ⟨hc, hw⟩ | ⟨-, hw⟩
  swap
  · cases hw
  have hc' : A.nnz ≤ v.length := by omega
  refine ⟨v, rfl, hc', rfl, by simpa using hs, ?_⟩
  simp only [hf]
  have hlen : (v.take A.nnz).length = A.nnz := by rw [List.length_take]; omega
  rw [if_neg (by rw [hlen, hnz]; simp), if_neg (by simp)]
  have hcp : copyVals ((v.take A.nnz).length : Int) (v.take A.nnz)
      ({ (A.raw ta).copy0 with idiag := idl } : MCopy R).val = some w := by
    rw [← hw]
    unfold copyVals
    rw [if_pos (by rw [hval, hlen, hvl]; omega), hlen, Int.toNat_natCast, List.take_take, min_self]
  simp only [hcp, Option.bind_eq_bind, Option.bind_some]
  exact e

omit [CommRing R] [StarRing R] in
theorem raw_inj {A B : Csr R} {ta : Bool} (h : A.raw ta = B.raw ta) : A = B := by
  obtain ⟨m, n, b, p, i, v⟩ := A
  obtain ⟨m', n', b', p', i', v'⟩ := B
  cases ta <;> · simp [Csr.raw] at h; obtain ⟨h1, h2, h3, h4⟩ := h; simp_all

/-- a matrix without repeated coordinates has at most one diagonal entry in each row -/
theorem ordered_keeps {A' : Csr R} {srt : (Int → Int → Bool) → List Int → List Int} (hsrt : StdSort srt) (hA : A.WF) (hnd : A.NoDup)
    (hsq : ta = true → A.m = A.n) {H H' : MvHandle R} (hH : HandleOk ta A H) (hcsr : ∀ s ∈ H.mats, s.isCsr) {st : Status}
    (e : orderMat srt (some H) = some (st, some H')) (hA' : H'.raw = A'.raw ta) :
    st = .success ∧ A'.WF ∧ IsOrdered A A' ∧ HandleOk ta A' H' ∧ H'.nulls = H.nulls := by
  obtain ⟨B, H1, e1, h1, h2, h3, h4, h5⟩ := C26_order hsrt hA hnd hsq hH
  rw [e] at e1
  cases e1
  have := raw_inj (hA'.symm.trans h3)
  subst this
  exact ⟨rfl, h1, h2, h5 hcsr, h4⟩

theorem mvOn_keeps {isa : Isa} {k : MvSel R} {req op : Nat} {alpha beta : R} {H : MvHandle R} (hH : HandleOk ta A H)
    {d : Descr} {i : Nat} {x y : List R} {r : Status × List R × MvHandle R}
    (e : mvOn isa k req op alpha H d i x beta y = some r) : HandleOk ta A r.2.2 := by
  unfold mvOn at e
  cases hi : H.mats[i]? with
  | none => rw [hi] at e; cases e
  | some s =>
    rw [hi] at e
    cases s with
    | csr c opt iu =>
      dsimp only at e
      unfold mvCsr at e
      rcases ite_or e with ⟨-, e⟩ | ⟨-, e⟩
      · rcases ite_or e with ⟨-, e⟩ | ⟨-, e⟩
        · simp only [Option.bind_eq_bind, Option.bind_eq_some_iff] at e
          obtain ⟨q, eq, e⟩ := e
          rcases ite_or e with ⟨-, e⟩ | ⟨hq, e⟩
          · cases e; exact hH
          · simp only [Option.bind_eq_some_iff] at e
            obtain ⟨z, -, e⟩ := e
            cases e
            exact setDiag_keeps hH hi eq (not_not.1 hq)
        · simp only [Option.bind_eq_bind, Option.bind_eq_some_iff] at e
          obtain ⟨z, -, e⟩ := e
          cases e; exact hH
      · simp only [Option.bind_eq_bind, Option.bind_eq_some_iff] at e
        obtain ⟨z, -, e⟩ := e
        cases e; exact hH
    | blk base nR ptr ind masks val =>
      dsimp only at e
      unfold mvBlk at e
      rcases ite_or e with ⟨-, e⟩ | ⟨-, e⟩
      · cases e; exact hH
      · simp only [Option.bind_eq_bind, Option.bind_eq_some_iff] at e
        obtain ⟨z, -, e⟩ := e
        cases e; exact hH
    | hyb base w em ec ev map =>
      dsimp only at e
      unfold mvHyb at e
      split at e
      · split at e
        · cases e; exact hH
        · simp only [Option.bind_eq_bind, Option.bind_eq_some_iff] at e
          obtain ⟨z, -, e⟩ := e
          cases e; exact hH
      · cases e; exact hH
    | br4 base B =>
      dsimp only at e
      unfold mvBr4 at e
      split at e
      · cases e; exact hH
      · simp only [Option.bind_eq_bind, Option.bind_eq_some_iff] at e
        obtain ⟨z, -, e⟩ := e
        cases e; exact hH

/-- **products** -/
theorem mv_keeps {srt : (Int → Int → Bool) → List Int → List Int} (hsrt : StdSort srt) (hA : A.WF) (hd : A.OneDiag)
    (hnd : A.Grouped ∨ A.NoDup) {H : MvHandle R} (hH : HandleOk ta A H) {isa : Isa} {k : MvSel R} {g : Garb R}
    {same : Bool} {op : Int} {alpha beta : Option R} {d : Option Descr} {x y y' : Option (List R)} {st : Status}
    {H' : MvHandle R} (e : mv isa k srt g same op alpha (some H) d x beta y = some (st, y', some H')) :
    HandleOk ta A H' := by
  unfold mv at e
  rcases alpha with _ | alpha <;> rcases beta with _ | beta <;> rcases d with _ | d <;>
    rcases x with _ | x <;> rcases y with _ | y <;> try (cases e; exact hH)
  dsimp only at e
  iterate 6
    (rcases ite_or e with ⟨-, e'⟩ | ⟨-, e'⟩
     · cases e'; exact hH
     replace e := e'; clear e')
  rcases ite_or e with ⟨-, e⟩ | ⟨-, e⟩
  · simp only [Option.bind_eq_bind, Option.bind_eq_some_iff] at e
    obtain ⟨r, -, e⟩ := e
    cases e; exact hH
  · simp only [Option.bind_eq_bind, Option.bind_eq_some_iff] at e
    obtain ⟨r, e1, e⟩ := e
    cases e
    unfold mvRun at e1
    rcases ite_or e1 with ⟨-, e1⟩ | ⟨-, e1⟩
    · cases e1
    split at e1
    · cases e1; exact hH
    · simp only [Option.bind_eq_bind, Option.bind_eq_some_iff] at e1
      obtain ⟨q, e2, e1⟩ := e1
      cases q with
      | error s => cases e1; exact hH
      | ok q =>
        refine mvOn_keeps ?_ e1
        unfold mvReady at e2
        split at e2
        · cases e2
        · rcases ite_or e2 with ⟨-, e2⟩ | ⟨-, e2⟩
          · obtain ⟨i, H1, c, iu, e3, h1, -⟩ := csrCscOptimize_spec hsrt g.i g.v hA hd hnd hH
            rw [e3] at e2
            cases e2; exact h1
          · cases e2; exact hH

/-- **products followed by a dot product** -/
theorem dotmv_keeps {srt : (Int → Int → Bool) → List Int → List Int} (hsrt : StdSort srt) (hA : A.WF) (hd : A.OneDiag)
    (hnd : A.Grouped ∨ A.NoDup) {H : MvHandle R} (hH : HandleOk ta A H) {isa : Isa} {k : MvSel R}
    {dot : Option (DotKer R)} {g : Garb R} {same : Bool} {op : Int} {alpha beta : R} {d : Option Descr}
    {x y y' : Option (List R)} {out out' : Option R} {st : Status} {H' : MvHandle R}
    (e : dotmv isa k dot srt g same op alpha (some H) d x beta y out = some (st, y', out', some H')) :
    HandleOk ta A H' := by
  unfold dotmv at e
  rcases out with _ | o
  · cases e; exact hH
  simp only [Option.bind_eq_bind, Option.bind_eq_some_iff] at e
  obtain ⟨⟨s, z, h⟩, e1, e⟩ := e
  have hkeep : ∀ {h'}, h = some h' → HandleOk ta A h' := by
    rintro h' rfl
    exact mv_keeps hsrt hA hd hnd hH e1
  rcases ite_or e with ⟨-, e⟩ | ⟨-, e⟩
  · cases e; exact hkeep rfl
  cases dot with
  | none => cases e; exact hkeep rfl
  | some ker =>
    dsimp only at e
    cases h with
    | none => cases e
    | some h1 =>
      simp only [Option.bind_eq_bind, Option.bind_eq_some_iff] at e
      obtain ⟨h2, -, xs, -, ys, -, v, -, e⟩ := e
      cases e; exact hkeep rfl

/-- **optimisation of the arrays** -/
theorem optimized_keeps {srt : (Int → Int → Bool) → List Int → List Int} (hsrt : StdSort srt) (hA : A.WF)
    (hd : A.OneDiag) (hnd : A.Grouped ∨ A.NoDup) {H : MvHandle R} (hH : HandleOk ta A H) {gi : Nat → Int}
    {gv : Nat → R} {r : Except Status (Nat × MvHandle R)} (e : csrCscOptimize srt gi gv H = some r) :
    ∃ q, r = .ok q ∧ HandleOk ta A q.2 := by
  obtain ⟨i, H1, c, iu, e1, h1, -⟩ := csrCscOptimize_spec hsrt gi gv hA hd hnd hH
  rw [e1] at e
  cases e
  exact ⟨_, rfl, h1⟩

end ring

section field
variable {R : Type} [Field R] [StarRing R] [DecidableEq R] {ta : Bool} {A : Csr R}

/-- **triangular solves with several right-hand sides** -/
theorem trsm_keeps {srt : (Int → Int → Bool) → List Int → List Int} (hsrt : StdSort srt) (hA : A.WF) (hd : A.OneDiag)
    (hnd : A.Grouped ∨ A.NoDup) {H : MvHandle R} (hH : HandleOk ta A H) {isReal : Bool} {w : Nat} {cjg : R → R}
    {g : Garb R} {im : TrsvImpl R} {same : Bool} {sched : List Nat} {op : Int} {alpha : R} {d : Option Descr}
    {order : Int} {B X X' : Option (List R)} {n ldb ldx : Int} {st : Status} {H' : MvHandle R}
    (e : trsmH isReal w cjg srt g im same sched op alpha (some H) d order B n ldb X ldx = some (st, X', some H')) :
    HandleOk ta A H' := by
  unfold trsmH at e
  rcases X with _ | X <;> rcases B with _ | B <;> rcases d with _ | d <;> try (cases e; exact hH)
  dsimp only at e
  split at e
  · cases e; exact hH
  rcases ite_or e with ⟨-, e⟩ | ⟨-, e⟩
  · cases e; exact hH
  simp only [Option.bind_eq_bind, Option.bind_eq_some_iff] at e
  obtain ⟨r, e1, e⟩ := e
  obtain ⟨q, rfl, hq⟩ := optimized_keeps hsrt hA hd hnd hH e1
  dsimp only at e
  split at e
  · cases e; exact hq
  · simp only [Option.bind_eq_bind, Option.bind_eq_some_iff] at e
    obtain ⟨s, e2, e⟩ := e
    cases e
    unfold trsmLoop at e2
    have key : ∀ (ib ix ob ox : Int) (l : List Nat) (s0 s1 : Status × List R × MvHandle R),
        HandleOk ta A s0.2.2 →
        l.foldlM (trsmCol (fun H b x => (trsvH isReal w cjg srt g im true op alpha (some H) (some d) (some b)
              ib (some x) ix).bind trsvOut) ob ox B) s0 = some s1 → HandleOk ta A s1.2.2 := by
      intro ib ix ob ox l
      induction l with
      | nil => intro s0 s1 h0 e; cases e; exact h0
      | cons a l ih =>
        intro s0 s1 h0 e
        rw [List.foldlM_cons] at e
        simp only [Option.bind_eq_bind, Option.bind_eq_some_iff] at e
        obtain ⟨s2, e3, e⟩ := e
        refine ih s2 s1 ?_ e
        unfold trsmCol at e3
        simp only [Option.bind_eq_bind, Option.bind_eq_some_iff] at e3
        obtain ⟨b, -, x, -, z, ⟨z', e4, e5⟩, e3⟩ := e3
        cases e3
        obtain ⟨z1, z2, z3⟩ := z'
        unfold trsvOut at e5
        rcases z2 with _ | z2 <;> rcases z3 with _ | z3 <;> cases e5
        exact C27_handle_keeps hsrt g hA hd hnd h0 e4
    exact key _ _ _ _ _ _ _ hq e2

variable {E : GsEnv R} {H : MvHandle R}

theorem gsMv_keeps (hsrt : StdSort E.srt) (hA : A.WF) (hd : A.OneDiag) (hnd : A.Grouped ∨ A.NoDup)
    (hH : HandleOk ta A H) {op : Int} {alpha : R} {d : Descr} {x y : List R} {r : Status × List R × MvHandle R}
    (e : gsMv E op alpha H d x y = some r) : HandleOk ta A r.2.2 := by
  unfold gsMv at e
  simp only [Option.bind_eq_bind, Option.bind_eq_some_iff] at e
  obtain ⟨⟨s, z, h⟩, e1, y1, -, h1, e2, e⟩ := e
  cases e
  replace e2 : h = some h1 := e2
  subst e2
  exact mv_keeps hsrt hA hd hnd hH e1

theorem gsTrsv_keeps (hsrt : StdSort E.srt) (hA : A.WF) (hd : A.OneDiag) (hnd : A.Grouped ∨ A.NoDup)
    (hH : HandleOk ta A H) {op : Int} {d : Descr} {b x : List R} {r : Status × List R × MvHandle R}
    (e : gsTrsv E op H d b x = some r) : HandleOk ta A r.2.2 := by
  unfold gsTrsv at e
  simp only [Option.bind_eq_bind, Option.bind_eq_some_iff] at e
  obtain ⟨⟨s, z, h⟩, e1, y1, -, h1, e2, e⟩ := e
  cases e
  replace e2 : h = some h1 := e2
  subst e2
  exact C27_handle_keeps hsrt E.g hA hd hnd hH e1

theorem gsFuse_keeps (hsrt : StdSort E.srt) (hA : A.WF) (hd : A.OneDiag) (hnd : A.Grouped ∨ A.NoDup)
    (hH : HandleOk ta A H) {op : Int} {d : Descr} {x : List R} {y : Option (List R)} {fuse : Bool}
    {r : Status × List R × Option (List R) × MvHandle R} (e : gsFuse E op H d x y fuse = some r) :
    HandleOk ta A r.2.2.2 := by
  unfold gsFuse at e
  rcases ite_or e with ⟨-, e⟩ | ⟨-, e⟩
  · simp only [Option.bind_eq_bind, Option.bind_eq_some_iff] at e
    obtain ⟨yl, -, q, e1, e⟩ := e
    cases e
    exact gsMv_keeps hsrt hA hd hnd hH e1
  · cases e; exact hH

/-- **symmetric Gauss-Seidel** -/
theorem symgs_keeps (hsrt : StdSort E.srt) (hA : A.WF) (hd : A.OneDiag) (hnd : A.Grouped ∨ A.NoDup)
    (hH : HandleOk ta A H) {same : Bool} {op : Int} {d : Option Descr} {alpha : R} {b x y : Option (List R)}
    {fuse : Bool} {st : Status} {x' y' : Option (List R)} {H' : MvHandle R}
    (e : symgs E same op (some H) d alpha b x y fuse = some (st, x', y', some H')) : HandleOk ta A H' := by
  unfold symgs at e
  rcases x with _ | x <;> rcases b with _ | b <;> rcases d with _ | d <;> try (cases e; exact hH)
  dsimp only at e
  iterate 13
    (rcases ite_or e with ⟨-, e'⟩ | ⟨-, e'⟩
     · cases e'; exact hH
     replace e := e'; clear e')
  simp only [Option.bind_eq_bind, Option.bind_eq_some_iff] at e
  obtain ⟨r, e1, e⟩ := e
  obtain ⟨q, rfl, hq⟩ := optimized_keeps hsrt hA hd hnd hH e1
  dsimp only at e
  rcases ite_or e with ⟨-, e⟩ | ⟨-, e⟩
  · cases e; exact hq
  simp only [Option.bind_eq_some_iff] at e
  obtain ⟨s, e2, e⟩ := e
  cases e
  unfold symgsRef at e2
  rcases ite_or e2 with ⟨-, e2⟩ | ⟨-, e2⟩
  · unfold gsTri at e2
    simp only [Option.bind_eq_bind, Option.bind_eq_some_iff] at e2
    obtain ⟨a, ea, e2⟩ := e2
    have ha := gsTrsv_keeps hsrt hA hd hnd hq ea
    rcases ite_or e2 with ⟨-, e2⟩ | ⟨-, e2⟩
    · cases e2; exact ha
    · exact gsFuse_keeps hsrt hA hd hnd ha e2
  · unfold gsSweeps at e2
    simp only [Option.bind_eq_bind, Option.bind_eq_some_iff] at e2
    obtain ⟨a, ea, z, -, c, ec, e2⟩ := e2
    have hc := gsTrsv_keeps hsrt hA hd hnd (gsMv_keeps hsrt hA hd hnd hq ea) ec
    rcases ite_or e2 with ⟨-, e2⟩ | ⟨-, e2⟩
    · cases e2; exact hc
    · unfold gsBack at e2
      simp only [Option.bind_eq_bind, Option.bind_eq_some_iff] at e2
      obtain ⟨a2, ea2, z2, -, c2, ec2, e2⟩ := e2
      have hc2 := gsTrsv_keeps hsrt hA hd hnd (gsMv_keeps hsrt hA hd hnd hc ea2) ec2
      rcases ite_or e2 with ⟨-, e2⟩ | ⟨-, e2⟩
      · cases e2; exact hc2
      · exact gsFuse_keeps hsrt hA hd hnd hc2 e2

/-! ### the direct solvers -/

/-- the built-in preconditioner of CG -/
theorem itsolSymgs_keeps (hsrt : StdSort E.srt) (hA : A.WF) (hd : A.OneDiag) (hnd : A.Grouped ∨ A.NoDup)
    (hH : HandleOk ta A H) {d : Descr} {r y z : List R} {q : Status × List R × List R × MvHandle R}
    (e : itsolSymgs E H d r y z = some q) : HandleOk ta A q.2.2.2 := by
  unfold itsolSymgs at e
  split at e
  · cases e; exact hH
  iterate 2
    (rcases ite_or e with ⟨-, e'⟩ | ⟨-, e'⟩
     · cases e'; exact hH
     replace e := e'; clear e')
  unfold sgsSolves at e
  simp only [Option.bind_eq_bind, Option.bind_eq_some_iff] at e
  obtain ⟨a, ea, e⟩ := e
  have ha := gsTrsv_keeps hsrt hA hd hnd hH ea
  rcases ite_or e with ⟨-, e⟩ | ⟨-, e⟩
  · cases e; exact ha
  · simp only [Option.bind_eq_some_iff] at e
    obtain ⟨y1, -, c, ec, e⟩ := e
    cases e
    exact gsTrsv_keeps hsrt hA hd hnd ha ec

end field

/-- What the calls of a direct solver keep, the solver keeps: the product, the preconditioners and the monitor. -/
structure EnvKeeps {R Q τ : Type} (E : Env R Q τ) (I : τ → Prop) : Prop where
  mv : ∀ {t u v r}, I t → E.mv t u v = some r → I r.2.2
  precond : ∀ {f t n u v r}, E.precond = some f → I t → f t n u v = some r → I r.2.2
  monit : ∀ {f t n u v i r}, E.monit = some f → I t → f t n u v i = some r → I r.2.2
  builtin : ∀ {t u v r}, I t → E.builtin t u v = some r → I r.2.2

section direct
variable {R : Type} [Zero R] [One R] [Add R] [Sub R] [Neg R] [Mul R] [Div R] {Q τ : Type} [LinearOrder Q]
  {num : Num R Q} {gnum : GNum R Q} {E : Env R Q τ} {I : τ → Prop}

theorem cgServe_keeps (hE : EnvKeeps E I) {D D' : DirSt R Q τ} (hI : I D.t)
    (e : cgServe E D = some (.ok D')) : I D'.t := by
  unfold cgServe at e
  split at e
  · cases e
  split at e
  · simp only [Option.bind_eq_bind, Option.bind_eq_some_iff] at e
    obtain ⟨u, -, v, -, r, er, e⟩ := e
    rcases ite_or e with ⟨-, e⟩ | ⟨-, e⟩
    · cases e
    · simp only [Option.bind_eq_some_iff] at e
      obtain ⟨c, -, e⟩ := e
      cases e
      exact hE.mv hI er
  · simp only [Option.bind_eq_bind, Option.bind_eq_some_iff] at e
    obtain ⟨u, -, v, -, e⟩ := e
    unfold cgPrecondStep at e
    dsimp only at e
    rcases ite_or e with ⟨-, e⟩ | ⟨-, e⟩
    · split at e
      · cases e
      · rename_i f hf
        simp only [Option.bind_eq_bind, Option.bind_eq_some_iff] at e
        obtain ⟨r, er, c, -, e⟩ := e
        cases e
        exact hE.precond hf hI er
    rcases ite_or e with ⟨-, e⟩ | ⟨-, e⟩
    · cases e; exact hI
    rcases ite_or e with ⟨-, e⟩ | ⟨-, e⟩
    · simp only [Option.bind_eq_bind, Option.bind_eq_some_iff] at e
      obtain ⟨r, er, e⟩ := e
      rcases ite_or e with ⟨-, e⟩ | ⟨-, e⟩
      · cases e
      · simp only [Option.bind_eq_some_iff] at e
        obtain ⟨c, -, e⟩ := e
        cases e
        exact hE.builtin hI er
    · simp only [Option.bind_eq_bind, Option.bind_eq_some_iff] at e
      obtain ⟨r, -, c, -, e⟩ := e
      cases e; exact hI
  · split at e
    · cases e; exact hI
    · rename_i f hf
      simp only [Option.bind_eq_bind, Option.bind_eq_some_iff] at e
      obtain ⟨r, er, e⟩ := e
      cases e
      exact hE.monit hf hI er
  · cases e; exact hI

theorem gmServe_keeps (hE : EnvKeeps E I) {D D' : DirSt R Q τ} (hI : I D.t)
    (e : gmServe E D = some (.ok D')) : I D'.t := by
  unfold gmServe at e
  split at e
  · cases e
  split at e
  · simp only [Option.bind_eq_bind, Option.bind_eq_some_iff] at e
    obtain ⟨u, -, v, -, r, er, e⟩ := e
    rcases ite_or e with ⟨-, e⟩ | ⟨-, e⟩
    · cases e
    · simp only [Option.bind_eq_some_iff] at e
      obtain ⟨c, -, e⟩ := e
      cases e
      exact hE.mv hI er
  · simp only [Option.bind_eq_bind, Option.bind_eq_some_iff] at e
    obtain ⟨u, -, v, -, D1, e, e1⟩ := e
    cases e1
    unfold gmPrecondStep at e
    dsimp only at e
    rcases ite_or e with ⟨-, e⟩ | ⟨-, e⟩
    · split at e
      · cases e
      · rename_i f hf
        simp only [Option.bind_eq_bind, Option.bind_eq_some_iff] at e
        obtain ⟨r, er, c, -, e⟩ := e
        cases e
        exact hE.precond hf hI er
    rcases ite_or e with ⟨-, e⟩ | ⟨-, e⟩
    · simp only [Option.bind_eq_bind, Option.bind_eq_some_iff] at e
      obtain ⟨r, er, c, -, e⟩ := e
      cases e
      exact hE.builtin hI er
    · simp only [Option.bind_eq_bind, Option.bind_eq_some_iff] at e
      obtain ⟨r, -, c, -, e⟩ := e
      cases e; exact hI
  · split at e
    · cases e; exact hI
    · rename_i f hf
      simp only [Option.bind_eq_bind, Option.bind_eq_some_iff] at e
      obtain ⟨r, er, e⟩ := e
      cases e
      exact hE.monit hf hI er
  · cases e; exact hI

theorem cgLoop_keeps (hE : EnvKeeps E I) {g : Nat → R} {gq : Q} {w : Int} : ∀ {fuel : Nat} {st : Status}
    {D : DirSt R Q τ} {r : Status × DirSt R Q τ}, I D.t → cgLoop num gnum E g gq w fuel st D = some r → I r.2.t := by
  intro fuel
  induction fuel with
  | zero => intro st D r _ e; cases e
  | succ fuel ih =>
    intro st D r hI e
    unfold cgLoop at e
    simp only [Option.bind_eq_bind, Option.bind_eq_some_iff] at e
    obtain ⟨q, -, e⟩ := e
    rcases ite_or e with ⟨-, e⟩ | ⟨-, e⟩
    · cases e; exact hI
    rcases ite_or e with ⟨-, e⟩ | ⟨-, e⟩
    · cases e; exact hI
    simp only [Option.bind_eq_some_iff] at e
    obtain ⟨z, ez, e⟩ := e
    cases z with
    | error s => cases e; exact hI
    | ok D' =>
      have h' : I D'.t := cgServe_keeps hE (D := ⟨q.2, D.t⟩) hI ez
      dsimp only at e
      rcases ite_or e with ⟨-, e⟩ | ⟨-, e⟩
      · cases e; exact h'
      · exact ih h' e

theorem gmLoop_keeps (hE : EnvKeeps E I) {g : Nat → R} {gq : Q} {w : Int} : ∀ {fuel : Nat}
    {D : DirSt R Q τ} {r : Status × DirSt R Q τ}, I D.t → gmLoop num gnum E g gq w fuel D = some r → I r.2.t := by
  intro fuel
  induction fuel with
  | zero => intro D r _ e; cases e
  | succ fuel ih =>
    intro D r hI e
    unfold gmLoop at e
    simp only [Option.bind_eq_bind, Option.bind_eq_some_iff] at e
    obtain ⟨q, -, e⟩ := e
    rcases ite_or e with ⟨-, e⟩ | ⟨-, e⟩
    · cases e; exact hI
    rcases ite_or e with ⟨-, e⟩ | ⟨-, e⟩
    · cases e; exact hI
    simp only [Option.bind_eq_some_iff] at e
    obtain ⟨z, ez, e⟩ := e
    cases z with
    | error s => cases e; exact hI
    | ok D' => exact ih (gmServe_keeps hE (D := ⟨q.2, D.t⟩) hI ez) e

theorem gmSolve_keeps (hE : EnvKeeps E I) {g : Nat → R} {gq : Q} {w : Int} {fuel : Nat} {mm mn : Int}
    {D : DirSt R Q τ} {r : Status × DirSt R Q τ} (hI : I D.t)
    (e : gmSolve num gnum E g gq w fuel mm mn D = some r) : I r.2.t := by
  unfold gmSolve at e
  split at e
  · cases e
  rcases ite_or e with ⟨-, e⟩ | ⟨-, e⟩
  · cases e; exact hI
  rcases ite_or e with ⟨-, e⟩ | ⟨-, e⟩
  · cases e; exact hI
  · exact gmLoop_keeps hE (by exact hI) e

/-- **the direct interface of the solvers** -/
theorem itsol_keeps (hE : EnvKeeps E I) {g : Nat → R} {gq : Q} {w : Int} {fuel : Nat} {mm mn : Int}
    {dtype dfill ddiag : Nat} {opt : τ → Option (Status × τ)} {full : τ → Bool}
    {gmres : DirSt R Q τ → Option (Status × DirSt R Q τ)} {n : Int} {b : Option (List R)} {D : DirSt R Q τ}
    {r : Status × DirSt R Q τ} (hopt : ∀ {t z}, I t → opt t = some z → I z.2)
    (hgm : ∀ {D z}, I D.t → gmres D = some z → I z.2.t) (hI : I D.t)
    (e : itsolSolve num gnum E g gq w fuel mm mn dtype dfill ddiag opt full gmres n b D = some r) : I r.2.t := by
  unfold itsolSolve at e
  simp only [Option.bind_eq_bind, Option.bind_eq_some_iff] at e
  obtain ⟨rinfo, -, a, -, e⟩ := e
  split at e
  · cases e
  rcases ite_or e with ⟨-, e⟩ | ⟨-, e⟩
  · cases e; exact hI
  simp only [Option.bind_eq_some_iff] at e
  obtain ⟨s, -, e⟩ := e
  rcases ite_or e with ⟨-, e⟩ | ⟨-, e⟩
  · cases e; exact hI
  simp only [Option.bind_eq_some_iff] at e
  obtain ⟨z, ez, e⟩ := e
  have hz := hopt hI ez
  rcases ite_or e with ⟨-, e⟩ | ⟨-, e⟩
  · cases e; exact hz
  rcases ite_or e with ⟨-, e⟩ | ⟨-, e⟩
  · simp only [Option.bind_eq_some_iff] at e
    obtain ⟨q, eq, e⟩ := e
    cases e
    show I q.2.t
    unfold cgSolve at eq
    split at eq
    · cases eq
    iterate 5
      (rcases ite_or eq with ⟨-, e'⟩ | ⟨-, e'⟩
       · cases e'; exact hz
       replace eq := e'; clear e')
    exact cgLoop_keeps hE (by exact hz) eq
  rcases ite_or e with ⟨-, e⟩ | ⟨-, e⟩
  · simp only [Option.bind_eq_some_iff] at e
    obtain ⟨q, eq, e⟩ := e
    cases e
    have hq : I q.2.t := by
      refine hgm ?_ eq
      exact hz
    exact hq
  · cases e; exact hz

end direct

section solvers
variable {R : Type} [Field R] [StarRing R] [DecidableEq R] {ta : Bool} {A : Csr R} {E : GsEnv R}
  {Q τ : Type} [LinearOrder Q] {num : Num R Q} {gnum : GNum R Q}

/-- **direct CG** -/
theorem cgDirect_keeps (hsrt : StdSort E.srt) (hA : A.WF) (hd : A.OneDiag) (hnd : A.Grouped ∨ A.NoDup)
    {g : Nat → R} {gq : Q} {w : Int} {fuel : Nat} {d : Descr}
    {precond : Option (τ → Int → List R → List R → Option (Int × List R × τ))}
    {monit : Option (τ → Int → Option (List R) → Option (List R) → List Q → Option (Int × List Q × τ))}
    {gmres : DirSt R Q (SgsSt R τ) → Option (Status × DirSt R Q (SgsSt R τ))}
    (hgm : ∀ {D z}, HandleOk ta A D.t.H → gmres D = some z → HandleOk ta A z.2.t.H) {n : Int} {b : Option (List R)}
    {D : DirSt R Q (SgsSt R τ)} {r : Status × DirSt R Q (SgsSt R τ)} (hH : HandleOk ta A D.t.H)
    (e : cgDirect num gnum E g gq w fuel d precond monit gmres n b D = some r) : HandleOk ta A r.2.t.H := by
  refine itsol_keeps (I := fun t => HandleOk ta A t.H) ⟨?_, ?_, ?_, ?_⟩ ?_ hgm hH e
  · intro t u v r hI e
    replace e : sgsMv E d t u v = some r := e
    unfold sgsMv at e
    simp only [Option.bind_eq_bind, Option.bind_eq_some_iff] at e
    obtain ⟨q, eq, e⟩ := e
    cases e
    exact gsMv_keeps hsrt hA hd hnd hI eq
  · intro f t n u v r hf hI e
    replace hf : precond.map sgsUser = some f := hf
    cases precond with
    | none => cases hf
    | some p =>
      cases hf
      unfold sgsUser at e
      simp only [Option.bind_eq_bind, Option.bind_eq_some_iff] at e
      obtain ⟨q, -, e⟩ := e
      cases e
      exact hI
  · intro f t n u v i r hf hI e
    replace hf : monit.map sgsMonit = some f := hf
    cases monit with
    | none => cases hf
    | some p =>
      cases hf
      unfold sgsMonit at e
      simp only [Option.bind_eq_bind, Option.bind_eq_some_iff] at e
      obtain ⟨q, -, e⟩ := e
      cases e
      exact hI
  · intro t u v r hI e
    replace e : sgsBuiltin E d t u v = some r := e
    unfold sgsBuiltin at e
    simp only [Option.bind_eq_bind, Option.bind_eq_some_iff] at e
    obtain ⟨q, eq, e⟩ := e
    cases e
    exact itsolSymgs_keeps hsrt hA hd hnd hI eq
  · intro t z hI e
    unfold sgsOptimize at e
    simp only [Option.bind_eq_bind, Option.bind_eq_some_iff] at e
    obtain ⟨q, eq, e⟩ := e
    obtain ⟨p, rfl, hp⟩ := optimized_keeps hsrt hA hd hnd hI eq
    cases e
    exact hp

/-- **direct GMRES** -/
theorem gmDirect_keeps (hsrt : StdSort E.srt) (hA : A.WF) (hd : A.OneDiag) (hnd : A.Grouped ∨ A.NoDup)
    {nz : R → Bool} {gd : Nat → Int} {g : Nat → R} {gq : Q} {w : Int} {fuel : Nat} {d : Descr}
    {precond : Option (τ → Int → List R → List R → Option (Int × List R × τ))}
    {monit : Option (τ → Int → Option (List R) → Option (List R) → List Q → Option (Int × List Q × τ))}
    {n : Int} {b : Option (List R)} {D : DirSt R Q (GmiSt R τ)} {r : Status × DirSt R Q (GmiSt R τ)}
    (hH : HandleOk ta A D.t.H)
    (e : gmDirect num gnum E nz gd g gq w fuel d precond monit n b D = some r) : HandleOk ta A r.2.t.H := by
  have hE : EnvKeeps (gmiEnv E nz gd d precond monit) (fun t => HandleOk ta A t.H) := by
    refine ⟨?_, ?_, ?_, ?_⟩
    · intro t u v r hI e
      replace e : gmiMv E d t u v = some r := e
      unfold gmiMv at e
      simp only [Option.bind_eq_bind, Option.bind_eq_some_iff] at e
      obtain ⟨q, eq, e⟩ := e
      cases e
      exact gsMv_keeps hsrt hA hd hnd hI eq
    · intro f t n u v r hf hI e
      replace hf : precond.map gmiUser = some f := hf
      cases precond with
      | none => cases hf
      | some p =>
        cases hf
        unfold gmiUser at e
        simp only [Option.bind_eq_bind, Option.bind_eq_some_iff] at e
        obtain ⟨q, -, e⟩ := e
        cases e
        exact hI
    · intro f t n u v i r hf hI e
      replace hf : monit.map gmiMonit = some f := hf
      cases monit with
      | none => cases hf
      | some p =>
        cases hf
        unfold gmiMonit at e
        simp only [Option.bind_eq_bind, Option.bind_eq_some_iff] at e
        obtain ⟨q, -, e⟩ := e
        cases e
        exact hI
    · intro t u v r hI e
      replace e : gmiBuiltin nz gd d t u v = some r := e
      unfold gmiBuiltin at e
      simp only [Option.bind_eq_bind, Option.bind_eq_some_iff] at e
      obtain ⟨q, -, x, -, I, -, e⟩ := e
      cases e
      exact hI
  refine itsol_keeps (I := fun t => HandleOk ta A t.H) hE ?_ (fun hI e => gmSolve_keeps hE hI e) hH e
  intro t z hI e
  unfold gmiOptimize at e
  simp only [Option.bind_eq_bind, Option.bind_eq_some_iff] at e
  obtain ⟨q, eq, e⟩ := e
  obtain ⟨p, rfl, hp⟩ := optimized_keeps hsrt hA hd hnd hI eq
  cases e
  exact hp

end solvers
end Verif
