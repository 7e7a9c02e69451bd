/-
Running out of memory: symmetric Gauss-Seidel, optimize, order_mat.
-/
import Verif.Proofs.Oom2

namespace Verif
open Model

/-! ### triangular products on a handle that has a clean copy ask for nothing -/

section ring
variable {R : Type} [DecidableEq R] [CommRing R] [StarRing R] {ta : Bool} {A : Csr R} {o : Oom}

theorem getDoid_tri_ge (isReal : Bool) {f : Nat} (hf : f = 0 ∨ f = 1) (op : Int) :
    12 ≤ getDoid isReal 3 f op ∧ getDoid isReal 3 f op ≤ 20 := by
  unfold getDoid doidLen
  simp only
  rcases hf with rfl | rfl <;> simp <;> (repeat' split) <;> omega

theorem effDoid_tri_ge {c r : Nat} (hc : c < 12) (h1 : 12 ≤ r) (h2 : r ≤ 20) : 12 ≤ effDoid c r := by
  have : ∀ c < 12, ∀ r < 21, 12 ≤ r → 12 ≤ effDoid c r := by decide
  exact this c hc r (by omega) h1

omit [StarRing R] in
theorem mvCsrM_tri {k : MvSel R} {req : Nat} {alpha beta : R} {H : MvHandle R} {d : Descr}
    {i : Nat} {c : MCopy R} {opt : Bool} {iu : Option (List Int)} {x y : List R} (hc : c.doid < 12) (h1 : 12 ≤ req)
    (h2 : req ≤ 20) :
    mvCsrM o k req alpha H d i c opt iu x beta y = mvCsr k req alpha H d i c opt iu x beta y ∧
    ∀ r, mvCsr k req alpha H d i c opt iu x beta y = some r → r.2.2 = H := by
  unfold mvCsrM mvCsr
  have hne : c.doid ≠ req := by omega
  rw [if_neg hne, if_neg hne]
  have he := effDoid_tri_ge hc h1 h2
  constructor
  · unfold csrmvDM
    rw [if_neg (by unfold gt; omega)]
  · intro r e
    simp only [Option.bind_eq_bind, Option.bind_eq_some_iff] at e
    obtain ⟨q, -, e⟩ := e
    cases e; rfl

theorem mvOnM_tri {isa : Isa} {k : MvSel R} {req op : Nat} {alpha beta : R} {H : MvHandle R} (hH : HandleOk ta A H)
    {d : Descr} {i : Nat} {x y : List R} (h1 : 12 ≤ req) (h2 : req ≤ 20)
    (hh : ∀ b w em ec ev map, H.mats[i]? ≠ some (.hyb b w em ec ev map)) :
    mvOnM o isa k req op alpha H d i x beta y = mvOn isa k req op alpha H d i x beta y ∧
    ∀ r, mvOn isa k req op alpha H d i x beta y = some r → r.2.2 = H := by
  unfold mvOnM mvOn
  cases hi : H.mats[i]? with
  | none => exact ⟨rfl, fun r e => by cases e⟩
  | some s =>
    cases s with
    | csr c opt iu =>
      have := hH.all _ (List.mem_of_getElem? hi)
      exact mvCsrM_tri this.1.kind h1 h2
    | blk base nR ptr ind masks val =>
      refine ⟨rfl, fun r e => ?_⟩
      dsimp only at e
      unfold mvBlk at e
      rcases ite_or e with ⟨-, e⟩ | ⟨-, e⟩
      · cases e; rfl
      · simp only [Option.bind_eq_bind, Option.bind_eq_some_iff] at e
        obtain ⟨q, -, e⟩ := e
        cases e; rfl
    | hyb base w em ec ev map => exact absurd hi (hh _ _ _ _ _ _)
    | br4 base B =>
      refine ⟨rfl, fun r e => ?_⟩
      dsimp only at e
      unfold mvBr4 at e
      split at e
      · cases e; rfl
      · simp only [Option.bind_eq_bind, Option.bind_eq_some_iff] at e
        obtain ⟨q, -, e⟩ := e
        cases e; rfl

theorem mvRunM_tri {srt : (Int → Int → Bool) → List Int → List Int} {g : Garb R} {H : MvHandle R}
    (hH : HandleOk ta A H) {j : Nat} (hj : optIdx H.mats = some j) {isa : Isa} {k : MvSel R} {op : Int} {alpha beta : R}
    {d : Descr} (ht : d.type = 3) (hf : d.fill = 0 ∨ d.fill = 1) {x y : List R} :
    mvRunM o isa k srt g op alpha H d x beta y = mvRun isa k srt g op alpha H d x beta y ∧
    ∀ r, mvRun isa k srt g op alpha H d x beta y = some r → r.2.2 = H := by
  unfold mvRunM mvRun
  by_cases h0 : H.nulls ≠ 0
  · rw [if_pos h0, if_pos h0]; exact ⟨rfl, fun r e => by cases e⟩
  rw [if_neg h0, if_neg h0]
  obtain ⟨h1, h2⟩ := getDoid_tri_ge k.real hf op
  rw [← ht] at h1 h2
  cases hb : getBest isa k (getDoid k.real d.type d.fill op) H.mats with
  | none => exact ⟨rfl, fun r e => by cases e; rfl⟩
  | some i =>
    dsimp only
    obtain ⟨s, hs, -, ha⟩ := getBest_some hb
    obtain ⟨c1, c2⟩ := csrCscOptimizeM_some (o := o) hj srt g.i g.v
    unfold mvReadyM mvReady
    rw [hs]
    dsimp only
    by_cases h3 : d.type ≠ 0 ∧ needsClean (getDoid k.real d.type d.fill op) s
    · rw [if_pos h3, if_pos h3, c1, c2]
      refine mvOnM_tri hH h1 h2 ?_
      intro b w em ec ev map hx
      obtain ⟨s', k1, k2⟩ := optIdx_some _ hj
      rw [k1] at hx
      cases hx
      cases k2
    · rw [if_neg h3, if_neg h3]
      refine mvOnM_tri hH h1 h2 ?_
      intro b w em ec ev map hx
      rw [hs] at hx
      cases hx
      refine ha ?_
      have he := effDoid_tri_ge (c := gn) (by decide) h1 h2
      show archScore isa k.real k.dbl 3 (effDoid gn _) = 0
      unfold archScore
      rw [if_neg (by decide), if_neg (by decide), if_pos rfl, if_neg]
      rintro ⟨h, -⟩
      rw [h] at he
      exact absurd he (by decide)

theorem mvM_tri {srt : (Int → Int → Bool) → List Int → List Int} {g : Garb R} {H : MvHandle R}
    (hH : HandleOk ta A H) {j : Nat} (hj : optIdx H.mats = some j) {isa : Isa} {k : MvSel R} {same : Bool} {op : Int}
    {alpha beta : R} {d : Descr} (ht : d.type = 3) (hf : d.fill = 0 ∨ d.fill = 1) {x y : List R} :
    mvM o isa k srt g same op (some alpha) (some H) (some d) (some x) (some beta) (some y)
      = mv isa k srt g same op (some alpha) (some H) (some d) (some x) (some beta) (some y) ∧
    ∀ r, mv isa k srt g same op (some alpha) (some H) (some d) (some x) (some beta) (some y) = some r →
      r.2.2 = some H := by
  unfold mvM mv
  dsimp only
  obtain ⟨k1, k2⟩ := mvRunM_tri (o := o) (srt := srt) (g := g) (isa := isa) (k := k)
    (op := if k.real = true ∧ op = 113 then 112 else op) (alpha := alpha) (beta := beta) (x := x) (y := y) hH hj ht hf
  rw [k1]
  refine ⟨rfl, fun r e => ?_⟩
  iterate 6
    (rcases ite_or e with ⟨-, e'⟩ | ⟨-, e'⟩
     · cases e'; rfl
     replace e := e'; clear e')
  rcases ite_or e with ⟨-, e⟩ | ⟨-, e⟩
  · simp only [Option.bind_eq_bind, Option.bind_eq_some_iff] at e
    obtain ⟨r, -, e⟩ := e
    cases e; rfl
  · simp only [Option.bind_eq_bind, Option.bind_eq_some_iff] at e
    obtain ⟨r, e1, e⟩ := e
    cases e
    rw [k2 _ e1]

end ring

/-! ### symmetric Gauss-Seidel -/

section field
variable {R : Type} [Field R] [StarRing R] [DecidableEq R] {ta : Bool} {A : Csr R} {o : Oom} {E : GsEnv R}
  {H : MvHandle R}

theorem gsMvM_tri (hH : HandleOk ta A H) {j : Nat} (hj : optIdx H.mats = some j) {op : Int} {alpha : R} {d : Descr}
    (ht : d.type = 3) (hf : d.fill = 0 ∨ d.fill = 1) {x y : List R} :
    gsMvM o E op alpha H d x y = gsMv E op alpha H d x y ∧
    ∀ r, gsMv E op alpha H d x y = some r → r.2.2 = H := by
  obtain ⟨k1, k2⟩ := mvM_tri (o := o) (srt := E.srt) (g := E.g) (isa := E.isa) (k := E.k) (same := true)
    (op := op) (alpha := alpha) (beta := 0) (x := x) (y := y) hH hj ht hf
  unfold gsMvM gsMv
  rw [k1]
  refine ⟨rfl, fun r e => ?_⟩
  simp only [Option.bind_eq_bind, Option.bind_eq_some_iff] at e
  obtain ⟨q, e1, y1, -, h1, e2, e⟩ := e
  cases e
  have := k2 q e1
  rw [this] at e2
  cases e2; rfl

theorem gsTrsvM_tri {j : Nat} (hj : optIdx H.mats = some j) {op : Int} {d : Descr} {b x : List R} :
    gsTrsvM o E op H d b x = gsTrsv E op H d b x ∧ ∀ r, gsTrsv E op H d b x = some r → r.2.2 = H := by
  unfold gsTrsvM gsTrsv
  rw [trsvHM_some hj]
  refine ⟨rfl, fun r e => ?_⟩
  simp only [Option.bind_eq_bind, Option.bind_eq_some_iff] at e
  obtain ⟨⟨q1, q2, q3⟩, e1, y1, -, h1, e2, e⟩ := e
  cases e
  replace e2 : q3 = some h1 := e2
  subst e2
  exact trsvH_same (csrCscOptimizeM_some (o := o) hj E.srt E.g.i E.g.v).2 e1

/-- what symgs without enough memory leaves -/
def GsOutOfMem (ta : Bool) (A : Csr R) (fuse : Bool) (x : List R) (y : Option (List R))
    (r : Status × List R × Option (List R) × MvHandle R) : Prop :=
  r.1 = .memoryError ∧ HandleOk ta A r.2.2.2 ∧ (fuse = false → r.2.1 = x ∧ r.2.2.1 = y)

theorem gsFuseM_cases (hsrt : StdSort E.srt) (hA : A.WF) (hd : A.OneDiag) (hnd : A.Grouped ∨ A.NoDup)
    (hn : o.sort = true → A.Grouped) (hH : HandleOk ta A H) {op : Int} {d : Descr} {x x0 : List R} {y : Option (List R)}
    {fuse : Bool} :
    gsFuseM o E op H d x y fuse = gsFuse E op H d x y fuse ∨
    ∃ r, gsFuseM o E op H d x y fuse = some r ∧ GsOutOfMem ta A fuse x0 y r := by
  unfold gsFuseM gsFuse
  cases fuse with
  | false => exact .inl rfl
  | true =>
    rw [if_pos rfl, if_pos rfl]
    cases y with
    | none => exact .inl rfl
    | some y =>
      simp only [Option.bind_eq_bind, Option.bind_some]
      unfold gsMvM gsMv
      rcases mvM_cases (o := o) (g := E.g) (isa := E.isa) (k := E.k) (same := true) (op := op) (alpha := some 1)
        (beta := some 0) (d := some d) (x := some x) (y := some y) hsrt hA hd hnd hn hH with h | ⟨y0, r, hy, h, hr⟩
      · rw [h]; exact .inl rfl
      · rw [h]
        exact .inr ⟨_, rfl, hr.1, hr.2.1, fun h => by cases h⟩

theorem gsTriM_cases (hsrt : StdSort E.srt) (hA : A.WF) (hd : A.OneDiag) (hnd : A.Grouped ∨ A.NoDup)
    (hn : o.sort = true → A.Grouped) (hH : HandleOk ta A H) {j : Nat} (hj : optIdx H.mats = some j) {op : Int}
    {d : Descr} {b x : List R} {y : Option (List R)} {fuse : Bool} :
    gsTriM o E op H d b x y fuse = gsTri E op H d b x y fuse ∨
    ∃ r, gsTriM o E op H d b x y fuse = some r ∧ GsOutOfMem ta A fuse x y r := by
  unfold gsTriM gsTri
  obtain ⟨k1, k2⟩ := gsTrsvM_tri (o := o) (E := E) hj (op := op) (d := d) (b := b) (x := x)
  rw [k1]
  cases e : gsTrsv E op H d b x with
  | none => exact .inl rfl
  | some r =>
    simp only [Option.bind_eq_bind, Option.bind_some]
    refine ite_step (S := fun u => ∃ r, u = some r ∧ GsOutOfMem ta A fuse x y r) ?_
    rw [k2 _ e]
    exact gsFuseM_cases hsrt hA hd hnd hn hH

theorem gsModes_fill (t f : Nat) (op : Int) :
    ((gsModes t f op).uf = 0 ∨ (gsModes t f op).uf = 1) ∧ ((gsModes t f op).lf = 0 ∨ (gsModes t f op).lf = 1) := by
  unfold gsModes
  split
  · exact ⟨.inr rfl, .inr rfl⟩
  split
  · exact ⟨.inr rfl, .inl rfl⟩
  split
  · exact ⟨.inl rfl, .inr rfl⟩
  split
  · exact ⟨.inr rfl, .inr rfl⟩
  · exact ⟨.inl rfl, .inl rfl⟩

theorem gsBackM_cases (hsrt : StdSort E.srt) (hA : A.WF) (hd : A.OneDiag) (hnd : A.Grouped ∨ A.NoDup)
    (hn : o.sort = true → A.Grouped) (hH : HandleOk ta A H) {j : Nat} (hj : optIdx H.mats = some j) {md : GsModes}
    (hl : md.lf = 0 ∨ md.lf = 1) {op : Int} {d : Descr} {b x q z : List R} {y : Option (List R)} {fuse : Bool} :
    gsBackM o E md op H d b x q z y fuse = gsBack E md op H d b x q z y fuse ∨
    ∃ r, gsBackM o E md op H d b x q z y fuse = some r ∧ GsOutOfMem ta A fuse x y r := by
  unfold gsBackM gsBack
  obtain ⟨k1, k2⟩ := gsMvM_tri (o := o) (E := E) hH hj (op := md.lt) (alpha := 1) (d := ⟨3, md.lf, 2, d.base⟩) rfl hl
    (x := q) (y := z)
  rw [k1]
  cases e : gsMv E md.lt 1 H ⟨3, md.lf, 2, d.base⟩ q z with
  | none => exact .inl rfl
  | some r =>
    have hr := k2 _ e
    simp only [Option.bind_eq_bind, Option.bind_some]
    rw [hr]
    cases gsSub H.raw.um b r.2.1 q with
    | none => exact .inl rfl
    | some q2 =>
      simp only [Option.bind_some]
      obtain ⟨l1, l2⟩ := gsTrsvM_tri (o := o) (E := E) hj (op := md.ut) (d := ⟨3, md.uf, 0, d.base⟩) (b := q2) (x := x)
      rw [l1]
      cases e2 : gsTrsv E md.ut H ⟨3, md.uf, 0, d.base⟩ q2 x with
      | none => exact .inl rfl
      | some s =>
        simp only [Option.bind_some]
        refine ite_step (S := fun u => ∃ r, u = some r ∧ GsOutOfMem ta A fuse x y r) ?_
        rw [l2 _ e2]
        exact gsFuseM_cases hsrt hA hd hnd hn hH

theorem gsSweepsM_cases (hsrt : StdSort E.srt) (hA : A.WF) (hd : A.OneDiag) (hnd : A.Grouped ∨ A.NoDup)
    (hn : o.sort = true → A.Grouped) (hH : HandleOk ta A H) {j : Nat} (hj : optIdx H.mats = some j) {md : GsModes}
    (hu : md.uf = 0 ∨ md.uf = 1) (hl : md.lf = 0 ∨ md.lf = 1) {op : Int} {alpha : R} {d : Descr} {b x : List R}
    {y : Option (List R)} {fuse : Bool} :
    gsSweepsM o E md op alpha H d b x y fuse = gsSweeps E md op alpha H d b x y fuse ∨
    ∃ r, gsSweepsM o E md op alpha H d b x y fuse = some r ∧ GsOutOfMem ta A fuse x y r := by
  unfold gsSweepsM gsSweeps
  obtain ⟨k1, k2⟩ := gsMvM_tri (o := o) (E := E) hH hj (op := md.ut) (alpha := alpha) (d := ⟨3, md.uf, 2, d.base⟩) rfl hu
    (x := x) (y := List.replicate H.raw.um.toNat 0)
  rw [k1]
  cases e : gsMv E md.ut alpha H ⟨3, md.uf, 2, d.base⟩ x (List.replicate H.raw.um.toNat 0) with
  | none => exact .inl rfl
  | some r =>
    have hr := k2 _ e
    simp only [Option.bind_eq_bind, Option.bind_some]
    rw [hr]
    cases gsSub H.raw.um b r.2.1 (List.replicate H.raw.um.toNat 0) with
    | none => exact .inl rfl
    | some z =>
      simp only [Option.bind_some]
      obtain ⟨l1, l2⟩ := gsTrsvM_tri (o := o) (E := E) hj (op := md.lt) (d := ⟨3, md.lf, 0, d.base⟩) (b := z)
        (x := r.2.1)
      rw [l1]
      cases e2 : gsTrsv E md.lt H ⟨3, md.lf, 0, d.base⟩ z r.2.1 with
      | none => exact .inl rfl
      | some s =>
        simp only [Option.bind_some]
        refine ite_step (S := fun u => ∃ r, u = some r ∧ GsOutOfMem ta A fuse x y r) ?_
        rw [l2 _ e2]
        exact gsBackM_cases hsrt hA hd hnd hn hH hj hl

/-- **symmetric Gauss-Seidel**: as with enough memory, or memory_error and a correct handle; without the fused product
`x` and `y` are as they were -/
theorem symgsM_cases (hsrt : StdSort E.srt) (hA : A.WF) (hd : A.OneDiag) (hnd : A.Grouped ∨ A.NoDup)
    (hn : o.sort = true → A.Grouped) (hH : HandleOk ta A H) {same : Bool} {op : Int} {d : Option Descr} {alpha : R}
    {b x y : Option (List R)} {fuse : Bool} :
    symgsM o E same op (some H) d alpha b x y fuse = symgs E same op (some H) d alpha b x y fuse ∨
    ∃ x' y' H', symgsM o E same op (some H) d alpha b x y fuse = some (.memoryError, x', y', some H') ∧
      HandleOk ta A H' ∧ (fuse = false → x' = x ∧ y' = y) := by
  unfold symgsM symgs
  rcases x with _ | x <;> rcases b with _ | b <;> rcases d with _ | d <;> try exact .inl rfl
  dsimp only
  iterate 13
    refine ite_step (S := fun u => ∃ x' y' H', u = some (Status.memoryError, x', y', some H') ∧
      HandleOk ta A H' ∧ (fuse = false → x' = some x ∧ y' = y)) ?_
  rcases csrCscOptimizeM_cases (o := o) (srt := E.srt) E.g.i E.g.v hA hd hn hH with h | ⟨H', h, hk⟩
  · rw [h]
    cases e : csrCscOptimize E.srt E.g.i E.g.v H with
    | none => exact .inl rfl
    | some r =>
      obtain ⟨q, rfl, hq⟩ := optimized_keeps hsrt hA hd hnd hH e
      have hj := optIdx_after e
      simp only [Option.map_some, liftH, Option.bind_eq_bind, Option.bind_some]
      refine ite_step (S := fun u => ∃ x' y' H', u = some (Status.memoryError, x', y', some H') ∧
        HandleOk ta A H' ∧ (fuse = false → x' = some x ∧ y' = y)) ?_
      have key : symgsRefM o E op alpha q.2 d b x y fuse = symgsRef E op alpha q.2 d b x y fuse ∨
          ∃ r, symgsRefM o E op alpha q.2 d b x y fuse = some r ∧ GsOutOfMem ta A fuse x y r := by
        unfold symgsRefM symgsRef
        by_cases hw : o.work = true
        · rw [if_pos hw]
          exact .inr ⟨_, rfl, rfl, hq, fun _ => ⟨rfl, rfl⟩⟩
        · rw [if_neg hw]
          by_cases ht : d.type = 3
          · rw [if_pos ht, if_pos ht]
            exact gsTriM_cases hsrt hA hd hnd hn hq hj
          · rw [if_neg ht, if_neg ht]
            obtain ⟨f1, f2⟩ := gsModes_fill d.type d.fill op
            exact gsSweepsM_cases hsrt hA hd hnd hn hq hj f1 f2
      rcases key with k | ⟨r, k, hr⟩
      · rw [k]; exact .inl rfl
      · rw [k]
        refine .inr ⟨some r.2.1, r.2.2.1, r.2.2.2, ?_, hr.2.1, fun hf => ?_⟩
        · simp only [Option.bind_some]
          rw [hr.1]
        · obtain ⟨a, b⟩ := hr.2.2 hf
          rw [a, b]
          exact ⟨rfl, rfl⟩
  · rw [h]
    exact .inr ⟨_, _, H', rfl, hk, fun _ => ⟨rfl, rfl⟩⟩

end field

/-! ### order_mat -/

/-- **ordering**: as with enough memory, or memory_error and nothing changed -/
theorem orderMatM_cases {R : Type} {o : Oom} {srt : (Int → Int → Bool) → List Int → List Int} {H : MvHandle R} :
    orderMatM o srt (some H) = orderMat srt (some H) ∨
    orderMatM o srt (some H) = some (.memoryError, some H) := by
  unfold orderMatM orderMat
  dsimp only
  iterate 3
    refine ite_step (S := fun u => u = some (Status.memoryError, some H)) ?_
  rcases hm : H.mats with _ | ⟨s, rest⟩
  · exact .inl rfl
  · cases s with
    | csr c opt iu =>
      dsimp only
      by_cases h : o.work = true ∨ o.sort = true
      · rw [if_pos h]; exact .inr rfl
      · rw [if_neg h]; exact .inl rfl
    | blk base nR ptr ind masks val => exact .inl rfl
    | hyb base w em ec ev map => exact .inl rfl
    | br4 base B => exact .inl rfl

/-! ### optimize -/

section opt
variable {R : Type} [CommRing R] [StarRing R] [DecidableEq R] {o : Oom}

omit [StarRing R] [DecidableEq R] in
theorem transformHintM_cases (fail : Bool) {g : Garb R} {cj re : R → R} {M : RawMat R} {h : OptHint}
    {copies : List (MCopy R)} :
    transformHintM fail g cj re M h copies = transformHint g cj re M h copies ∨
    transformHintM fail g cj re M h copies = some (.memoryError, h, copies) := by
  unfold transformHintM transformHint
  iterate 2
    refine ite_step (S := fun u => u = some (Status.memoryError, h, copies)) ?_
  have key : ∀ d fill doid, makeCopyM fail g cj re M d fill doid = makeCopy g cj re M d fill doid ∨
      makeCopyM fail g cj re M d fill doid = some (.memoryError, none) := by
    intro d fill doid
    unfold makeCopyM
    split
    · exact .inr rfl
    split
    · exact .inr rfl
    · exact .inl rfl
  rcases key (if M.doid = gt then transDoid h.doid else h.doid)
      (if M.doid = gt then (if h.fill = 0 then 1 else 0) else h.fill) h.doid with k | k
  · rw [k]; exact .inl rfl
  · rw [k]; exact .inr rfl

omit [StarRing R] [DecidableEq R] in
/-- the walk over the hints stops at the failure: the hints before it are served -/
theorem matrixTransformM_cases {g : Garb R} {cj re : R → R} {M : RawMat R} (hs : List OptHint) :
    ∀ (f : Nat → Bool) (copies : List (MCopy R)),
      matrixTransformM g cj re M f hs copies = matrixTransform g cj re M hs copies ∨
      ∃ n hs' copies', matrixTransform g cj re M (hs.take n) copies = some (.success, hs', copies') ∧
        matrixTransformM g cj re M f hs copies = some (.memoryError, hs' ++ hs.drop n, copies') := by
  induction hs with
  | nil => intro f copies; exact .inl rfl
  | cons h hs ih =>
    intro f copies
    unfold matrixTransformM
    rw [matrixTransform]
    rcases transformHintM_cases (f 0) (g := g) (cj := cj) (re := re) (M := M) (h := h) (copies := copies) with k | k
    · rw [k]
      cases e : transformHint g cj re M h copies with
      | none => exact .inl rfl
      | some r =>
        simp only [Option.bind_eq_bind, Option.bind_some]
        by_cases hr : r.1 = .success
        · rw [if_pos hr, if_pos hr]
          rcases ih (fun i => f (i + 1)) r.2.2 with k2 | ⟨n, hs', copies', k2, k3⟩
          · rw [k2]; exact .inl rfl
          · refine .inr ⟨n + 1, r.2.1 :: hs', copies', ?_, ?_⟩
            · rw [List.take_succ_cons, matrixTransform, e]
              simp only [Option.bind_eq_bind, Option.bind_some]
              rw [if_pos hr, k2]
              rfl
            · rw [k3]; rfl
        · rw [if_neg hr, if_neg hr]; exact .inl rfl
    · rw [k]
      exact .inr ⟨0, [], copies, rfl, rfl⟩

variable {isa : Isa} {ch : MvChoice} {g' : MvGarb R} {A : Csr R} {H : MvHandle R} {ta : Bool}

/-- what optimize without enough memory leaves -/
def OptOutOfMem (ta : Bool) (A : Csr R) (r : Status × MvHandle R) : Prop :=
  r.1 = .memoryError ∧ HandleOk ta A r.2

theorem optimizeMvM_cases (hA : A.WF) (hf : FmtOk isa ch A) (hb : o.blkTmp = false) (hH : HandleOk false A H)
    (dbl : Bool) :
    optimizeMvM o isa dbl ch g' H = optimizeMv isa dbl ch g' H ∨
    ∃ r, optimizeMvM o isa dbl ch g' H = some r ∧ OptOutOfMem false A r := by
  unfold optimizeMvM optimizeMv
  by_cases hq : dbl = false ∨ H.plain = false ∨ H.raw.um ≤ 1 ∨ H.raw.un ≤ 1
  · rw [if_pos hq, if_pos hq]; exact .inl rfl
  rw [if_neg hq, if_neg hq]
  have hum : H.raw.um = (A.m : Int) := by rw [hH.raw]; rfl
  have hm : 1 < A.m := by
    by_contra hc
    exact hq (.inr (.inr (.inl (by rw [hum]; omega))))
  obtain ⟨idl, op, iu, rest, hfst⟩ := hH.first
  rw [hfst]
  dsimp only
  refine ite_step (S := fun u => ∃ r, u = some r ∧ OptOutOfMem false A r) ?_
  have e1 : optBlkM o isa ch g' H { (A.raw false).copy0 with idiag := idl }
      = (optBlk isa ch g' H { (A.raw false).copy0 with idiag := idl }).map (fun H => (Status.success, H)) ∨
      optBlkM o isa ch g' H { (A.raw false).copy0 with idiag := idl } = some (.memoryError, H) := by
    unfold optBlkM optBlk
    split
    · cases optBlksize H.raw.um H.raw.nnz (A.raw false).copy0.base (some (A.raw false).copy0.ptr)
        (some (A.raw false).copy0.ind) (some 0) ch.early ch.pick4 ch.pick2 with
      | none => exact .inl rfl
      | some b =>
        simp only [Option.bind_eq_bind, Option.bind_some]
        by_cases hb0 : b.1 ≠ 0
        · rw [if_pos hb0, if_pos hb0]
          by_cases ho : o.blk = true
          · rw [if_pos ho]; exact .inr rfl
          · rw [if_neg ho]
            left
            unfold csr2blkcsrM
            rw [hb]
            simp only [Bool.false_eq_true, if_false]
            cases b.2 with
            | none => rfl
            | some tot =>
              simp only [Option.bind_eq_bind, Option.bind_some]
              cases csr2blkcsr H.raw.um H.raw.un H.raw.nnz (some (A.raw false).copy0.ptr)
                (some (A.raw false).copy0.ind) (some (A.raw false).copy0.val)
                ⟨some (alloc (H.raw.um + 1).toNat g'.g1), some (alloc H.raw.nnz.toNat g'.g2),
                  some (alloc (H.raw.nnz + b.1 * 8).toNat g'.gv), some (alloc (tot * b.1).toNat g'.gm)⟩ b.1
                (A.raw false).copy0.base with
              | none => rfl
              | some r =>
                simp only [Option.bind_some]
                rcases r.2 with ⟨_ | p, _ | i, _ | v, _ | m⟩ <;> rfl
        · rw [if_neg hb0, if_neg hb0]; exact .inl rfl
    · exact .inl rfl
  obtain ⟨H1, e2, h1⟩ := optBlk_ok (g := g') hA hf hH hm idl
  rcases e1 with e1 | e1
  · rw [e2] at e1
    have e1' := e1
    have e2' := e2
    simp only at e1' e2'
    simp only [e1', e2', Option.map_some, Option.bind_eq_bind, Option.bind_some]
    rw [if_neg (by simp)]
    unfold optFmtM optFmt
    by_cases c1 : H1.blkOpt = false ∧ ch.fmt = 1
    · rw [if_pos c1, if_pos c1]
      unfold optBr4M
      by_cases ho : o.br4 = true
      · rw [if_pos ho]
        exact .inr ⟨_, rfl, rfl, h1.same rfl rfl rfl rfl⟩
      · rw [if_neg ho]; exact .inl rfl
    rw [if_neg c1, if_neg c1]
    by_cases c2 : H1.blkOpt = false ∧ ch.fmt = 2
    · rw [if_pos c2, if_pos c2]
      unfold optHybM
      by_cases ho : o.hyb = true
      · rw [if_pos ho]
        unfold optHyb
        cases csr2ellthybWidth H1.raw.um H1.raw.nnz (some (A.raw false).copy0.ptr) 0 0 with
        | none => exact .inl rfl
        | some w =>
          simp only [Option.bind_eq_bind, Option.bind_some]
          by_cases hw : w.2.2 = 0
          · rw [if_pos hw, if_pos hw]; exact .inl rfl
          · rw [if_neg hw]
            exact .inr ⟨_, rfl, rfl, h1.same rfl rfl rfl rfl⟩
      · rw [if_neg ho]; exact .inl rfl
    · rw [if_neg c2, if_neg c2]; exact .inl rfl
  · have e1' := e1
    simp only at e1'
    simp only [e1', Option.bind_eq_bind, Option.bind_some]
    exact .inr ⟨_, if_pos (by decide), rfl, hH⟩

theorem optTransformM_cases (hA : A.WF) (hH : HandleOk ta A H)
    (unres : Bool) (g : Garb R) (re : R → R) (hre : ∀ y, star y = y → re y = y) {isReal : Bool}
    (hreal : isReal = true → ∀ y : R, star y = y) (hs : List MvHint)
    (hh : ∀ x ∈ hs, ∃ t f op, IsHint isReal t f op x.h ∧ HintOk isReal ta A t f op) :
    optTransformM o unres g star re H hs = optTransform unres g star re H hs ∨
    ∃ H' hs', optTransformM o unres g star re H hs = some (.memoryError, H', hs') ∧ HandleOk ta A H' := by
  unfold optTransformM optTransform
  by_cases hu : unres = true
  · rw [if_pos hu, if_pos hu]
    rcases matrixTransformM_cases (g := g) (cj := star) (re := re) (M := H.raw) (hs.map (·.h)) o.hint
      (csrCopies H.mats.tail) with k | ⟨n, q, copies', k1, k2⟩
    · rw [k]; exact .inl rfl
    · rw [k2]
      right
      have hcp : CopiesOk ta A (csrCopies H.mats.tail) := by
        intro c hc
        obtain ⟨o, iu, h⟩ := mem_csrCopies hc
        exact (hH.all _ (List.mem_of_mem_tail h)).1
      obtain ⟨hints', ext, e, -, hco, -⟩ := C43_transform (isReal := isReal) hA g re hre hreal
        ((hs.map (·.h)).take n)
        (by
          intro x hx
          obtain ⟨y, hy, rfl⟩ := List.mem_map.1 (List.mem_of_mem_take hx)
          exact hh y hy) (csrCopies H.mats.tail) hcp
      rw [hH.raw, e] at k1
      simp only [Option.some.injEq, Prod.mk.injEq, true_and] at k1
      obtain ⟨rfl, rfl⟩ := k1
      obtain ⟨ext', e1, e2⟩ := transform_shape _ _ e
      have hext : ext' = ext := (List.append_cancel_left e1).symm
      subst hext
      simp only [Option.bind_eq_bind, Option.bind_some]
      refine ⟨_, _, rfl, ?_⟩
      refine hH.append (L := ext'.map fun c => .csr c false none) ?_ rfl (by simp) rfl rfl
      intro s hs
      obtain ⟨c, hc, rfl⟩ := List.mem_map.1 hs
      obtain ⟨s1, s2, s3⟩ := e2 c hc
      exact ⟨⟨hco c (List.mem_append_right _ hc), s2, fun h => ⟨s3 h, s1⟩, fun h => by cases h⟩, rfl⟩
  · rw [if_neg hu, if_neg hu]; exact .inl rfl

/-- **optimize**: as with enough memory, or memory_error and a correct handle -/
theorem optimizeM_cases {dbl unres : Bool} {srt : (Int → Int → Bool) → List Int → List Int}
    {g : Garb R} {re : R → R} (hre : ∀ y, star y = y → re y = y) {isReal : Bool}
    (hreal : isReal = true → ∀ y : R, star y = y) (hA : A.WF) (hd : A.OneDiag) (hn : Noticed o A)
    (hf : ta = false → FmtOk isa ch A) (hH : HandleOk ta A H) (hs : List MvHint)
    (hh : ∀ x ∈ hs, ∃ t f op, IsHint isReal t f op x.h ∧ HintOk isReal ta A t f op) :
    optimizeM o isa dbl unres srt ch g g' star re H hs = optimize isa dbl unres srt ch g g' star re H hs ∨
    ∃ H' hs', optimizeM o isa dbl unres srt ch g g' star re H hs = some (.memoryError, H', hs') ∧
      HandleOk ta A H' := by
  unfold optimizeM optimize
  refine ite_step (S := fun u => ∃ H' hs', u = some (Status.memoryError, H', hs') ∧ HandleOk ta A H') ?_
  obtain ⟨H1, hs1, e1, h1⟩ := optTransform_ok hA hH unres g re hre hreal hs hh
  rcases optTransformM_cases (o := o) hA hH unres g re hre hreal hs hh with k | ⟨H', hs', k, hk⟩
  · rw [k, e1]
    simp only [Option.bind_eq_bind, Option.bind_some]
    rw [if_neg (by simp), if_neg (by simp)]
    have key : optActM o isa dbl srt ch g g' H1 (hs1.filter fun x => !x.h.done) H.raw.doid
        = optAct isa dbl srt ch g g' H1 (hs1.filter fun x => !x.h.done) H.raw.doid ∨
        ∃ r, optActM o isa dbl srt ch g g' H1 (hs1.filter fun x => !x.h.done) H.raw.doid = some r ∧
          OptOutOfMem ta A r := by
      unfold optActM optAct
      by_cases c1 : (hs1.filter fun x => !x.h.done) = []
      · rw [if_pos c1, if_pos c1]; exact .inl rfl
      rw [if_neg c1, if_neg c1]
      by_cases h : (hs1.filter fun x => !x.h.done).any
          (fun x => !isMvHint dbl H.raw.doid x && !decide ((x.act = 5 ∨ x.act = 9) ∧ x.nop > 0)) = true
      · rw [if_pos h, if_pos h]
        rcases csrCscOptimizeM_cases (o := o) (srt := srt) g.i g.v hA hd hn.sort h1 with h | ⟨H', h, hk⟩
        · rw [h]
          cases csrCscOptimize srt g.i g.v H1 with
          | none => exact .inl rfl
          | some r => cases r <;> exact .inl rfl
        · rw [h]
          exact .inr ⟨_, rfl, rfl, hk⟩
      · rw [if_neg h, if_neg h]
        by_cases hall : (hs1.filter fun x => !x.h.done).all (isMvHint dbl H.raw.doid) = true
        · rw [if_pos hall, if_pos hall]
          have hta : ta = false := by
            obtain ⟨x, hx⟩ := List.exists_mem_of_ne_nil _ c1
            have := List.all_eq_true.1 hall x hx
            unfold isMvHint at this
            have h6 := (of_decide_eq_true this).2.2.2.2.2
            rw [hH.raw, raw_doid] at h6
            cases ta
            · rfl
            · exact absurd rfl h6
          subst hta
          exact optimizeMvM_cases hA (hf rfl) hn.blk h1 dbl
        · rw [if_neg hall, if_neg hall]; exact .inl rfl
    rcases key with h | ⟨r, h, hr⟩
    · rw [h]; exact .inl rfl
    · rw [h]
      refine .inr ⟨r.2, hs1.map fun x => { x with h := { x.h with done := true } }, ?_, hr.2⟩
      simp only [Option.bind_some]
      rw [hr.1]
  · rw [k]
    simp only [Option.bind_eq_bind, Option.bind_some]
    exact .inr ⟨H', hs', if_pos (by decide), hk⟩

end opt
end Verif
