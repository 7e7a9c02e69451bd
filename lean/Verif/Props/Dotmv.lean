/-
C46: product with a matrix followed by a dot product.
-/
import Verif.Model.Dotmv
import Verif.Props.Mv
import Verif.Props.Level1

namespace Verif
open Model Finset

variable {R : Type} [CommRing R] [StarRing R] [DecidableEq R]

section
variable {isa : Isa} {k : MvSel R} {ta : Bool} {A : Csr R} {t : MType} {f : Fill} {D : Diag} {op : Op}
  {alpha beta : R} {x y : List R} {H : MvHandle R}

/-- **C46.**  On any handle with correct copies (in particular after every history, `C21_invariant`, `C21_nulls`),
`dotmv` either fails and leaves `d` alone, or succeeds with `y' = alpha * op(A) * x + beta * y` and
`d = ∑ conj(x i) * y' i` over the first `min(m, n)` elements; a call fails with changed `y` only if there
is no dot kernel. -/
theorem C46_dotmv {srt : (Int → Int → Bool) → List Int → List Int} (hsrt : StdSort srt) (g : Garb R)
    (hk : k.Ok) {dot : Option (DotKer R)} (hdot : ∀ ker, dot = some ker → ker.Ok) (d0 : R)
    (h : MvCall k ta A t f D op x y) (hH : HandleOk ta A H) (hn : H.nulls = 0) :
    ∃ st y' d H', dotmv isa k dot srt g true op.code alpha (some H)
        (some ⟨t.code, f.code, D.code, A.base⟩) (some x) beta (some y) (some d0)
        = some (st, some y', some d, some H') ∧
      HandleOk ta A H' ∧ (st ≠ .success → d = d0 ∧ (dot ≠ none → y' = y)) ∧
      (st = .success → IsMv alpha beta (operator t f D op (userMat ta A)) (opRows op ta A)
        (opCols op ta A) x y y' ∧
        d = ∑ i ∈ range (min A.m A.n), star (x.getD i 0) * y'.getD i 0) ∧
      (MvSupported isa k ta A t D op → dot ≠ none → st = .success) := by
  obtain ⟨st, y', H', e1, h1, h2, h3, h4⟩ := C21_mv (isa := isa) (alpha := alpha) (beta := beta) hsrt g hk h hH hn
  unfold dotmv
  dsimp only
  simp only [e1, Option.bind_eq_bind, Option.bind_some]
  by_cases hst : st = .success
  · subst hst
    rw [if_neg (by simp)]
    rcases dot with _ | ker
    · exact ⟨_, y', d0, H', rfl, h1, fun _ => ⟨rfl, by simp⟩, by simp, by simp⟩
    · have hum : H'.raw.um = (userRows ta A : Int) := by rw [h1.raw]; cases ta <;> rfl
      have hun : H'.raw.un = (userCols ta A : Int) := by rw [h1.raw]; cases ta <;> rfl
      have hmn : min H'.raw.um H'.raw.un = ((min A.m A.n : Nat) : Int) := by
        rw [hum, hun]
        cases ta <;> simp [userRows, userCols, min_comm]
      have hx : min A.m A.n ≤ x.length := by
        refine le_trans ?_ h.xlen
        cases op <;> cases ta <;> simp [opCols, userRows, userCols]
      have hy : min A.m A.n ≤ y'.length := by
        rw [(h3 rfl).length]
        refine le_trans ?_ h.ylen
        cases op <;> cases ta <;> simp [opRows, userRows, userCols]
      dsimp only
      rw [hmn, denseDot_ok (hdot ker rfl) k.cj hx hy]
      refine ⟨_, y', _, H', rfl, h1, by simp, fun _ => ⟨h3 rfl, ?_⟩, fun _ _ => rfl⟩
      rw [hk.cj]
  · rw [if_pos hst]
    refine ⟨st, y', d0, H', rfl, h1, fun _ => ⟨rfl, fun _ => h2 hst⟩, fun h => absurd h hst, fun h _ => h4 h⟩

/-- a null handle or a null result pointer is reported and nothing changes -/
theorem C46_invalid (srt : (Int → Int → Bool) → List Int → List Int) (g : Garb R) (dot : Option (DotKer R))
    (same : Bool) (opc : Int) (Hd : Option (MvHandle R)) (d : Option Descr) (xo yo : Option (List R))
    (out : Option R) (h : Hd = none ∨ out = none) :
    dotmv isa k dot srt g same opc alpha Hd d xo beta yo out = some (.invalidPointer, yo, out, Hd) := by
  unfold dotmv
  rcases h with rfl | rfl
  · cases out <;> rfl
  · rfl

end

/-- a 3 x 4 matrix: `min(m, n) = 3` -/
example : (dotmv ⟨true, false, false⟩ mvExSel (some .ref) insertionSortB mvExG true 111 1
    (some (.fresh (mvExA.raw false) false)) (some ⟨0, 0, 0, 1⟩) (some [1, 2, 3, 4]) 0 (some [0, 0, 0]) (some 7)).map
      (fun r => (r.1, r.2.1, r.2.2.1)) = some (.success, some [12, 0, 19], some 69) := by decide +kernel

end Verif
