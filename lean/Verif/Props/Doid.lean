/-
C01 stored-copy / requested-operation algebra is sound.
C02 descriptor algebra is closed and involutive.
-/
import Verif.Model.Doid
import Verif.Spec.Operator
import Mathlib.Algebra.Star.Basic
import Mathlib.Tactic.IntervalCases

namespace Verif
open Model

variable {R : Type} [CommRing R] [StarRing R]


theorem diagVal_star (D : Diag) (M : Mat R) (h : RealDiag M) (i : Nat) :
    star (diagVal D M i) = diagVal D M i := by
  cases D
  · exact h i
  · exact star_one R
  · exact star_zero R

theorem strict_total {i j : Nat} (f : Fill) (h : i ≠ j) : strictTri f i j ↔ ¬ strictTri f j i := by
  cases f <;> simp only [strictTri] <;> omega

/-- conjugate if `c`, transpose if `t` -/
def sgn (c t : Bool) (M : Mat R) : Mat R := fun i j =>
  let x := if t then M j i else M i j
  if c then star x else x

def flipIf (t : Bool) (f : Fill) : Fill :=
  if t then (match f with | .lower => .upper | .upper => .lower) else f

theorem sgn_sgn (c t c' t' : Bool) (M : Mat R) :
    sgn c t (sgn c' t' M) = sgn (c ^^ c') (t ^^ t') M := by
  funext i j
  cases c <;> cases t <;> cases c' <;> cases t' <;> simp [sgn]

theorem doidOp_eq (D : Diag) (d : Nat) (M : Mat R) {t f c tr}
    (h : doidMeaning d = some (t, f, c, tr)) :
    doidOp D d M = sgn c tr (structured t f D M) := by
  unfold doidOp
  rw [h]
  funext i j
  cases c <;> cases tr <;> rfl

theorem structured_tri (D : Diag) (f : Fill) (c t : Bool) (M : Mat R) :
    structured .triangular (flipIf t f) D (sgn c t M) = sgn c t (structured .triangular f D M) := by
  funext i j
  by_cases hij : i = j
  · subst hij
    cases c <;> cases t <;> cases D <;> simp [sgn, structured, diagVal]
  · have := strict_total f hij
    have hji : ¬ j = i := fun h => hij h.symm
    have e : strictTri (flipIf true f) i j ↔ strictTri f j i := by cases f <;> rfl
    by_cases hs : strictTri f i j <;> by_cases hs' : strictTri f j i <;>
      simp [hs, hs'] at this <;>
      cases c <;> cases t <;> simp [sgn, structured, e, hs, hs', hij, hji, flipIf] <;>
      simp [flipIf] at e <;> simp [e, hs, hs']

theorem structured_sym (D : Diag) (f : Fill) (c t : Bool) (M : Mat R) :
    structured .symmetric (flipIf t f) D (sgn c t M)
      = sgn c false (structured .symmetric f D M) := by
  funext i j
  by_cases hij : i = j
  · subst hij
    cases c <;> cases t <;> cases D <;> simp [sgn, structured, diagVal]
  · have := strict_total f hij
    have hji : ¬ j = i := fun h => hij h.symm
    have e : strictTri (flipIf true f) i j ↔ strictTri f j i := by cases f <;> rfl
    by_cases hs : strictTri f i j <;> by_cases hs' : strictTri f j i <;>
      simp [hs, hs'] at this <;>
      cases c <;> cases t <;> simp [sgn, structured, e, hs, hs', hij, hji, flipIf] <;>
      simp [flipIf] at e <;> simp [e, hs, hs']

theorem structured_herm (D : Diag) (f : Fill) (c t : Bool) (M : Mat R) (hr : RealDiag M) :
    structured .hermitian (flipIf t f) D (sgn c t M)
      = sgn (c ^^ t) false (structured .hermitian f D M) := by
  funext i j
  by_cases hij : i = j
  · subst hij
    have := hr i
    cases c <;> cases t <;> cases D <;> simp [sgn, structured, diagVal, this]
  · have := strict_total f hij
    have hji : ¬ j = i := fun h => hij h.symm
    have e : strictTri (flipIf true f) i j ↔ strictTri f j i := by cases f <;> rfl
    by_cases hs : strictTri f i j <;> by_cases hs' : strictTri f j i <;>
      simp [hs, hs'] at this <;>
      cases c <;> cases t <;> simp [sgn, structured, e, hs, hs', hij, hji, flipIf] <;>
      simp [flipIf] at e <;> simp [e, hs, hs']

/-- how the meaning of the selected operation must relate to the stored kind and the request -/
def effRel (mat req eff : Nat) : Bool :=
  match doidMeaning mat, doidMeaning req, doidMeaning eff with
  | some (t, f, c, tr), some (t', f', c', tr'), some (te, fe, ce, tre) =>
    decide (t = t' ∧ te = .general ∧ (t = .general ∨ f = f') ∧ ce = (c ^^ c') ∧ tre = (tr ^^ tr')) ||
    decide (t = .general ∧ te = t' ∧ fe = flipIf tr f' ∧
      ((t' = .triangular ∧ ce = (c ^^ c') ∧ tre = (tr ^^ tr')) ∨
       (t' = .symmetric ∧ tre = false ∧ tr' = false ∧ ce = (c ^^ c')) ∨
       (t' = .hermitian ∧ tre = false ∧ tr' = false ∧ ce = (c ^^ c' ^^ tr))))
  | _, _, _ => false

theorem effRel_table : ∀ mat < 20, ∀ req < 20, effDoid mat req ≠ doidLen →
    effRel mat req (effDoid mat req) = true := by decide +kernel

theorem meaning_herm : ∀ d < 20, ∀ f c tr, doidMeaning d = some (.hermitian, f, c, tr) →
    d >>> 2 = 2 := by
  intro d hd f c tr h
  interval_cases d <;> simp [doidMeaning] at h ⊢

/-- **C01.**  Take any user matrix `M` and any stored copy of kind `mat` (i.e. the
stored data is the operator `mat` denotes on `M`).  Whenever the library finds the
copy usable for a request `req` (`effDoid` is a valid identifier), applying the
selected operation to the stored copy is exactly the requested operator on `M`.
All 20×20 pairs; every matrix over every commutative ring with conjugation; every
diagonal type.  For Hermitian requests the diagonal must be real, as it is for
every Hermitian matrix. -/
theorem C01_effective_sound (D : Diag) (mat req : Nat) (hm : mat < 20) (hr : req < 20)
    (hok : effDoid mat req ≠ doidLen) (M : Mat R)
    (hreal : (req >>> 2 = 2) → RealDiag M) :
    doidOp D (effDoid mat req) (doidOp D mat M) = doidOp D req M := by
  have key := effRel_table mat hm req hr hok
  unfold effRel at key
  split at key
  · rename_i t f c tr t' f' c' tr' te fe ce tre hmat hreq heff
    rw [doidOp_eq D _ _ heff, doidOp_eq D _ _ hmat, doidOp_eq D _ _ hreq]
    simp only [Bool.or_eq_true, decide_eq_true_eq] at key
    rcases key with ⟨rfl, rfl, hf, rfl, rfl⟩ | ⟨rfl, rfl, rfl, hk⟩
    · have hs : structured t f D M = structured t f' D M := by
        rcases hf with rfl | rfl
        · rfl
        · rfl
      have hg : ∀ X : Mat R, structured .general fe D X = X := fun X => rfl
      rw [hg, sgn_sgn, hs]
      congr 1
      · cases c <;> cases c' <;> rfl
      · cases tr <;> cases tr' <;> rfl
    · have hg : structured .general f D M = M := rfl
      rw [hg]
      rcases hk with ⟨rfl, rfl, rfl⟩ | ⟨rfl, rfl, rfl, rfl⟩ | ⟨rfl, rfl, rfl, rfl⟩
      · rw [structured_tri, sgn_sgn]
        congr 1
        · cases c <;> cases c' <;> rfl
        · cases tr <;> cases tr' <;> rfl
      · rw [structured_sym, sgn_sgn]
        congr 1
        cases c <;> cases c' <;> rfl
      · rw [structured_herm _ _ _ _ _ (hreal (meaning_herm req hr _ _ _ hreq)), sgn_sgn]
        congr 1
        cases c <;> cases c' <;> cases tr <;> rfl
  · exact absurd key (by simp)


/-- C01, converse: the pairs for which a stored copy is refused are exactly those
where the copy has lost information the request needs (or is not considered by
design): a stored copy of a non-general kind serves only requests of the same
kind and triangle. -/
theorem C01_effective_defined : ∀ mat < 20, ∀ req < 20,
    (effDoid mat req ≠ doidLen ↔
      ∃ t f c tr t' f' c' tr', doidMeaning mat = some (t, f, c, tr) ∧
        doidMeaning req = some (t', f', c', tr') ∧
        (t = .general ∨ (t = t' ∧ f = f'))) := by
  intro mat hm req hr
  have key : ∀ mat < 20, ∀ req < 20, (effDoid mat req ≠ doidLen ↔
      (match doidMeaning mat, doidMeaning req with
      | some (t, f, _, _), some (t', f', _, _) => decide (t = .general ∨ (t = t' ∧ f = f'))
      | _, _ => false) = true) := by decide +kernel
  rw [key mat hm req hr]
  constructor
  · intro h
    split at h
    · rename_i t f c tr t' f' c' tr' h1 h2
      exact ⟨t, f, c, tr, t', f', c', tr', h1, h2, of_decide_eq_true h⟩
    · exact absurd h (by simp)
  · rintro ⟨t, f, c, tr, t', f', c', tr', h1, h2, h⟩
    rw [h1, h2]
    exact decide_eq_true h

/-- Non-vacuity of C01: the stored conjugate transpose serves a "triangular upper,
transposed" request through `tlc`. -/
example : effDoid 3 18 = 13 ∧ effDoid 3 18 ≠ doidLen := by decide

/-- Outside the table (identifier `len` = "invalid") the code does not return
"invalid": it answers `gn` for (len, len) and the non-existent identifier 26 for
(gt, len).  Callers must not pass it. -/
theorem C01_invalid_not_absorbing : effDoid doidLen doidLen = gn ∧ effDoid gt doidLen = 26 := by
  decide

/-! ### C02 -/

/-- **C02 (meaning).**  For every type, fill, operation, and both real and complex
data, the identifier computed from the request denotes the requested operator.
For real data conjugation is the identity; a Hermitian request needs a real diagonal. -/
theorem C02_getDoid_meaning (isReal : Bool) (t : MType) (f : Fill) (op : Op) (D : Diag)
    (M : Mat R) (hreal : isReal = true → ∀ x : R, star x = x)
    (hherm : t = .hermitian → RealDiag M) :
    doidOp D (getDoid isReal t.code f.code op.code) M = operator t f D op M := by
  have hs : isReal = true → (structured .symmetric f D M = structured .hermitian f D M) := by
    intro h
    funext i j
    simp [structured, hreal h]
  have hc : isReal = true → ∀ tr (X : Mat R), sgn true tr X = sgn false tr X := by
    intro h tr X
    funext i j
    simp [sgn, hreal h]
  have hsym : sgn false true (structured .symmetric f D M)
      = sgn false false (structured .symmetric f D M) := by
    have := structured_sym D f false true (sgn false true M)
    rw [sgn_sgn] at this
    funext i j
    by_cases hij : i = j
    · subst hij; rfl
    · have hji : ¬ j = i := fun h => hij h.symm
      have := strict_total f hij
      by_cases h1 : strictTri f i j <;> by_cases h2 : strictTri f j i <;>
        simp [h1, h2] at this <;> simp [sgn, structured, hij, hji, h1, h2]
  have hhrm : RealDiag M → sgn true true (structured .hermitian f D M)
      = sgn false false (structured .hermitian f D M) := by
    intro hr
    funext i j
    by_cases hij : i = j
    · subst hij; simp [sgn, structured, diagVal_star D M hr]
    · have hji : ¬ j = i := fun h => hij h.symm
      have := strict_total f hij
      by_cases h1 : strictTri f i j <;> by_cases h2 : strictTri f j i <;>
        simp [h1, h2] at this <;> simp [sgn, structured, hij, hji, h1, h2]
  have hcomp : ∀ c tr c' tr' (X Y : Mat R), sgn c tr X = Y → sgn (c' ^^ c) (tr' ^^ tr) X
      = sgn c' tr' Y := by
    intro c tr c' tr' X Y h
    rw [← sgn_sgn, h]
  have hop : operator t f D op M = (match op with
      | .none => sgn false false (structured t f D M)
      | .trans => sgn false true (structured t f D M)
      | .conjTrans => sgn true true (structured t f D M)) := by
    cases op <;> rfl
  rw [hop]
  cases t
  · -- general
    cases isReal <;> cases op <;> (first
      | rfl
      | (refine Eq.trans ?_ (hc rfl _ _).symm; rfl))
  · -- symmetric
    cases isReal <;> cases op <;> cases f <;> (first
      | rfl
      | (refine Eq.trans ?_ hsym.symm; rfl)
      | (refine Eq.trans ?_ (hc rfl _ _).symm; refine Eq.trans ?_ hsym.symm; rfl)
      | (have h2 := hcomp false true true false _ _ hsym
         refine Eq.trans ?_ h2.symm
         rw [sgn_sgn]; rfl))
  · -- hermitian
    cases isReal
    · have hr := hhrm (hherm rfl)
      have h2 := hcomp true true true false _ _ hr
      rw [sgn_sgn] at h2
      cases op <;> cases f <;> (first
        | rfl
        | (refine Eq.trans ?_ hr.symm; rfl)
        | (refine Eq.trans ?_ h2.symm; rfl))
    · rw [← hs rfl]
      cases op <;> cases f <;> (first
        | rfl
        | (refine Eq.trans ?_ hsym.symm; rfl)
        | (refine Eq.trans ?_ (hc rfl _ _).symm; refine Eq.trans ?_ hsym.symm; rfl))
  · -- triangular
    cases isReal <;> cases op <;> cases f <;> (first
      | rfl
      | (refine Eq.trans ?_ (hc rfl _ _).symm; rfl))

example : getDoid false 2 1 112 = 10 := by decide

/-- **C02 (closed).**  Valid requests get valid identifiers; an operation code that is
not one of the three operations gets the invalid identifier. -/
theorem C02_getDoid_valid (isReal : Bool) (t : MType) (f : Fill) (op : Op) :
    getDoid isReal t.code f.code op.code < 20 := by
  cases isReal <;> cases t <;> cases f <;> cases op <;> decide

theorem C02_getDoid_bad_op (isReal : Bool) (type fm : Nat) (op : Int)
    (h : op ≠ 111 ∧ op ≠ 112 ∧ op ≠ 113) : getDoid isReal type fm op = doidLen := by
  obtain ⟨h1, h2, h3⟩ := h
  unfold getDoid
  simp only [h3, h2, and_false, if_false]
  rw [if_pos (by omega)]

/-- **C02 (injective).**  For complex data, distinct requests on general or triangular
matrices get distinct identifiers (the fill mode is irrelevant for general ones). -/
theorem C02_getDoid_injective (t t' : MType) (f f' : Fill) (op op' : Op)
    (ht : t = .general ∨ t = .triangular) (ht' : t' = .general ∨ t' = .triangular)
    (h : getDoid false t.code f.code op.code = getDoid false t'.code f'.code op'.code) :
    t = t' ∧ op = op' ∧ (t = .triangular → f = f') := by
  revert h
  rcases ht with rfl | rfl <;> rcases ht' with rfl | rfl <;>
    cases f <;> cases f' <;> cases op <;> cases op' <;> decide

/-- **C02 (involutions).** -/
theorem C02_involutive : ∀ d < 20, transDoid (transDoid d) = d ∧ conjDoid (conjDoid d) = d ∧
    transDoid (conjDoid d) = conjDoid (transDoid d) ∧ transDoid d < 20 ∧ conjDoid d < 20 ∧
    transDoid d ≠ d ∧ conjDoid d ≠ d := by
  decide +kernel

/-- The invalid identifier is kept invalid. -/
theorem C02_invalid (d : Nat) (h : 20 ≤ d) : transDoid d = doidLen ∧ conjDoid d = doidLen := by
  constructor
  · unfold transDoid; rw [if_pos (show d ≥ doidLen from h)]
  · unfold conjDoid; rw [if_pos (show d ≥ doidLen from h)]

/-- **C02 (transposition).**  `transDoid d` on the transposed data (i.e. on the same
arrays read as CSC) denotes the same operator as `d` on the data; `conjDoid d`
denotes the conjugated operator.  They agree with the effective-identifier table,
as documented. -/
theorem C02_trans_conj_meaning (D : Diag) (d : Nat) (hd : d < 20) (M : Mat R)
    (hreal : (d >>> 2 = 2) → RealDiag M) :
    doidOp D (transDoid d) (transM M) = doidOp D d M ∧
    doidOp D (conjDoid d) M = conjM (doidOp D d M) ∧
    transDoid d = effDoid gt d ∧ conjDoid d = effDoid gc d := by
  have h1 : ∀ d < 20, transDoid d = effDoid gt d ∧ conjDoid d = effDoid gc d ∧
      effDoid gt d ≠ doidLen ∧ effDoid gc d ≠ doidLen := by decide +kernel
  have h2 : ∀ d < 20, (match doidMeaning d, doidMeaning (conjDoid d) with
      | some (t, f, c, tr), some (t', f', c', tr') =>
        decide (t = t' ∧ f = f' ∧ c' = (!c) ∧ tr = tr')
      | _, _ => false) = true := by decide +kernel
  obtain ⟨e1, e2, e3, e4⟩ := h1 d hd
  refine ⟨?_, ?_, e1, e2⟩
  · rw [e1]
    exact C01_effective_sound D gt d (by decide) hd e3 M hreal
  · have := h2 d hd
    split at this
    · rename_i t f c tr t' f' c' tr' ha hb
      obtain ⟨rfl, rfl, rfl, rfl⟩ := of_decide_eq_true this
      rw [doidOp_eq D _ _ ha, doidOp_eq D _ _ hb]
      funext i j
      cases c <;> cases tr <;> simp [sgn, conjM]
    · exact absurd this (by simp)

example : transDoid 14 = 16 ∧ conjDoid 10 = 11 := by decide

end Verif
