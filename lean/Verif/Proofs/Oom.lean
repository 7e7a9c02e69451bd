/-
Calls on a handle when memory runs out: each either does what it does with enough memory, or returns memory_error and
leaves a correct handle.
-/
import Verif.Model.Oom
import Verif.Proofs.Life

namespace Verif
open Model
variable {R : Type}

/-- the two allocations whose failure is not noticed by the library succeed: the permutation for sorting (needed only if
the rows are not sorted well enough) and the row pointers used while blocks are formed -/
structure Noticed (o : Oom) (A : Csr R) : Prop where
  sort : o.sort = true → A.Grouped
  blk : o.blkTmp = false

/-- two calls that may differ only in the last branch -/
theorem ite_step {α : Type} {c : Prop} {_ : Decidable c} {a b b' : α} {S : α → Prop} (h : b = b' ∨ S b) :
    (if c then a else b) = (if c then a else b') ∨ S (if c then a else b) := by
  by_cases hc : c
  · rw [if_pos hc, if_pos hc]; exact .inl rfl
  · rw [if_neg hc, if_neg hc]; exact h

/-! ### the clean copy -/

section opt
variable [Zero R]

def liftE {α : Type} : Except Status α → Except (Status × Bool) α
  | .error e => .error (e, false)
  | .ok a => .ok a

theorem optTailM_cases (o : Oom) (gi : Nat → Int) (gv : Nat → R) (m n nnz : Int) (fulldiag : Bool)
    (ptr ind : List Int) (val : List R) :
    optTailM o gi gv m n nnz fulldiag ptr ind val = (do
      let f ← optFill gi gv m n nnz fulldiag ptr ind val
      let x ← csrIndices gi m 0 f.1 f.2.1
      some (.ok ⟨false, 0, f.1, f.2.1, f.2.2, x.1, x.2, fulldiag⟩)) ∨
    optTailM o gi gv m n nnz fulldiag ptr ind val = some (.error (.memoryError, false)) := by
  unfold optTailM
  by_cases h : fulldiag = false ∧ o.fill = true
  · rw [if_pos h]; exact .inr rfl
  · rw [if_neg h]
    cases e : optFill gi gv m n nnz fulldiag ptr ind val with
    | none => exact .inl rfl
    | some f =>
      simp only [Option.bind_eq_bind, Option.bind_some]
      by_cases hi : o.idx = true
      · rw [if_pos hi]; exact .inr rfl
      · rw [if_neg hi]
        cases e2 : csrIndices gi m 0 f.1 f.2.1 with
        | none => exact .inl rfl
        | some x =>
          simp only [Option.bind_some]
          by_cases hp : o.push = true
          · rw [if_pos hp]; exact .inr rfl
          · rw [if_neg hp]; exact .inl rfl

theorem csrOptimizeM_cases (o : Oom) (srt : (Int → Int → Bool) → List Int → List Int) (gi : Nat → Int)
    (gv : Nat → R) (m n nnz base : Int) (ptr ind : List Int) (val : List R)
    (hs : o.sort = true → ∀ r, checkSortDiag m n base (some ptr) (some ind) = some r → r.2.1 = true) :
    csrOptimizeM o srt gi gv m n nnz base ptr ind val
      = (csrOptimize srt gi gv m n nnz base ptr ind val).map liftE ∨
    ∃ b, csrOptimizeM o srt gi gv m n nnz base ptr ind val = some (.error (.memoryError, b)) := by
  unfold csrOptimizeM csrOptimize
  cases e1 : matCheck m n nnz (some ptr) (some ind) (some val) .general base false with
  | none => exact .inl rfl
  | some r =>
    cases r with
    | error e => exact .inl rfl
    | ok s =>
      simp only [Option.bind_eq_bind, Option.bind_some]
      cases e2 : checkSortDiag m n base (some ptr) (some ind) with
      | none => exact .inl rfl
      | some sd =>
        simp only [Option.bind_some]
        by_cases h1 : sd.1 ≠ .success
        · rw [if_pos h1, if_pos h1]; exact .inl rfl
        rw [if_neg h1, if_neg h1]
        by_cases h2 : sd.2.1 = true ∧ sd.2.2 = true
        · rw [if_pos h2, if_pos h2]
          by_cases hi : o.idx = true
          · rw [if_pos hi]; exact .inr ⟨_, rfl⟩
          · rw [if_neg hi]
            refine .inl ?_
            cases csrIndices gi m base ptr ind <;> rfl
        · rw [if_neg h2, if_neg h2]
          by_cases hc : o.copy = true
          · rw [if_pos hc]; exact .inr ⟨_, rfl⟩
          rw [if_neg hc]
          cases e3 : copyZeroBased gi gv m nnz base ptr ind val with
          | none => exact .inl rfl
          | some c =>
            simp only [Option.bind_some]
            have hsort : optSortM o.sort srt m n nnz base ptr ind val sd.2.1 sd.2.2 c
                = optSort srt m n nnz base ptr ind val sd.2.1 sd.2.2 c := by
              unfold optSortM optSort
              by_cases h3 : sd.2.1 = false
              · rw [if_pos h3, if_pos h3]
                unfold sortIdxValM
                rw [if_neg]
                intro ho
                have := hs ho _ e2
                rw [h3] at this
                cases this
              · rw [if_neg h3, if_neg h3]
            rw [hsort]
            cases e4 : optSort srt m n nnz base ptr ind val sd.2.1 sd.2.2 c with
            | none => exact .inl rfl
            | some d =>
              simp only [Option.bind_some]
              by_cases h4 : d.1 ≠ .success
              · rw [if_pos h4, if_pos h4]; exact .inl rfl
              rw [if_neg h4, if_neg h4]
              rcases optTailM_cases o gi gv m n nnz d.2.2.2 c.1 d.2.1 d.2.2.1 with h | h
              · rw [h]
                refine .inl ?_
                cases optFill gi gv m n nnz d.2.2.2 c.1 d.2.1 d.2.2.1 with
                | none => rfl
                | some f =>
                  simp only [Option.bind_eq_bind, Option.bind_some]
                  cases csrIndices gi m 0 f.1 f.2.1 <;> rfl
              · exact .inr ⟨_, h⟩

end opt

variable [DecidableEq R] [CommRing R] [StarRing R] {ta : Bool} {A : Csr R} {o : Oom}

omit [DecidableEq R] in
theorem HandleOk.clear {H : MvHandle R} (hA : A.WF) (hH : HandleOk ta A H) (ho : optIdx H.mats = none)
    {idl : Option (List Int)} {opt : Bool} {iu : Option (List Int)} {rest : List (Stored R)}
    (hf : H.mats = .csr { (A.raw ta).copy0 with idiag := idl } opt iu :: rest) :
    HandleOk ta A { H with mats := .csr { (A.raw ta).copy0 with idiag := none } opt none :: rest } := by
  have hopt : opt = false := by
    cases opt
    · rfl
    · rw [hf] at ho
      cases ho
  subst hopt
  refine ⟨hH.raw, ⟨none, false, none, rest, rfl⟩, ?_, hH.sorted, ?_⟩
  · intro s hs
    rcases List.mem_cons.1 hs with rfl | hs
    · obtain ⟨k1, k2⟩ := copy0_idiag_ok hA ta none
      exact ⟨k1, by rw [k2]; rfl, fun _ => ⟨rfl, rfl⟩, fun h => by cases h⟩
    · exact hH.all s (by rw [hf]; exact List.mem_cons_of_mem _ hs)
  · intro s hs h
    rcases List.mem_cons.1 hs with rfl | hs
    · cases h
    · exact hH.full s (by rw [hf]; exact List.mem_cons_of_mem _ hs) h

/-- what a step that keeps a correct handle yields in a call without memory -/
def liftH {α : Type} (H : MvHandle R) : Except Status α → Except (Status × MvHandle R) α
  | .error e => .error (e, H)
  | .ok a => .ok a

omit [StarRing R] in
theorem csrCscOptimizeM_some {H : MvHandle R} {i : Nat} (h : optIdx H.mats = some i)
    (srt : (Int → Int → Bool) → List Int → List Int) (gi : Nat → Int) (gv : Nat → R) :
    csrCscOptimizeM o srt gi gv H = some (.ok (i, H)) ∧ csrCscOptimize srt gi gv H = some (.ok (i, H)) := by
  unfold csrCscOptimizeM csrCscOptimize
  rw [h]
  exact ⟨rfl, rfl⟩

theorem csrCscOptimizeM_cases {srt : (Int → Int → Bool) → List Int → List Int} (gi : Nat → Int) (gv : Nat → R)
    (hA : A.WF) (hd : A.OneDiag) (hn : o.sort = true → A.Grouped) {H : MvHandle R} (hH : HandleOk ta A H) :
    csrCscOptimizeM o srt gi gv H = (csrCscOptimize srt gi gv H).map (liftH H) ∨
    ∃ H', csrCscOptimizeM o srt gi gv H = some (.error (.memoryError, H')) ∧ HandleOk ta A H' := by
  cases ho : optIdx H.mats with
  | some i =>
    obtain ⟨h1, h2⟩ := csrCscOptimizeM_some (o := o) ho srt gi gv
    rw [h1, h2]
    exact .inl rfl
  | none =>
    obtain ⟨idl, op, iu, rest, hf⟩ := hH.first
    have hnz : H.raw.nnz = (A.nnz : Int) := by rw [hH.raw]; rfl
    have key := csrOptimizeM_cases o srt gi gv A.m A.n A.nnz A.base A.ptr A.ind A.val (by
      intro hs r hr
      rw [checkSortDiag_spec hA hd] at hr
      cases hr
      simpa using hn hs)
    unfold csrCscOptimizeM csrCscOptimize
    rw [ho]
    dsimp only
    have e0 : csrOptimizeM o srt gi gv (A.raw ta).copy0.m (A.raw ta).copy0.n A.nnz (A.raw ta).copy0.base
      (A.raw ta).copy0.ptr (A.raw ta).copy0.ind (A.raw ta).copy0.val
        = csrOptimizeM o srt gi gv A.m A.n A.nnz A.base A.ptr A.ind A.val := rfl
    have e1 : csrOptimize srt gi gv (A.raw ta).copy0.m (A.raw ta).copy0.n A.nnz (A.raw ta).copy0.base
      (A.raw ta).copy0.ptr (A.raw ta).copy0.ind (A.raw ta).copy0.val
        = csrOptimize srt gi gv A.m A.n A.nnz A.base A.ptr A.ind A.val := rfl
    rcases key with k | ⟨b, k⟩
    · left
      rw [hnz, hf]
      dsimp only
      rw [e0, k]
      simp only [e1]
      cases csrOptimize srt gi gv A.m A.n A.nnz A.base A.ptr A.ind A.val with
      | none => rfl
      | some r =>
        cases r with
        | error e => rfl
        | ok p =>
          simp only [Option.map_some, liftE, Option.bind_eq_bind, Option.bind_some]
          split <;> rfl
    · right
      rw [hnz, hf]
      dsimp only
      rw [e0, k]
      cases b with
      | false => exact ⟨H, rfl, hH⟩
      | true => exact ⟨_, rfl, hH.clear hA ho hf⟩

/-! ### products -/

section lens
omit [DecidableEq R] [StarRing R]

theorem forC_len {β : Type} {f : Int → List β → Option (List β)}
    (hf : ∀ i y z, f i y = some z → z.length = y.length ∧ ∀ y2 : List β, y2.length = y.length →
      ∃ z2, f i y2 = some z2 ∧ z2.length = y.length) (hi : Int) :
    ∀ (N : Nat) (lo : Int) (y z : List β), (hi - lo).toNat = N → forC lo hi f y = some z →
      z.length = y.length ∧ ∀ y2 : List β, y2.length = y.length → ∃ z2, forC lo hi f y2 = some z2 ∧
        z2.length = y.length := by
  intro N
  induction N with
  | zero =>
    intro lo y z h e
    have hle : hi ≤ lo := by omega
    rw [forC_ge hle] at e
    cases e
    exact ⟨rfl, fun y2 h2 => ⟨y2, forC_ge hle _ _, h2⟩⟩
  | succ N ih =>
    intro lo y z h e
    have hlt : lo < hi := by omega
    rw [forC_lt hlt] at e
    obtain ⟨z1, e1, e2⟩ := Option.bind_eq_some_iff.1 e
    obtain ⟨k1, k2⟩ := hf _ _ _ e1
    obtain ⟨k3, k4⟩ := ih (lo + 1) z1 z (by omega) e2
    refine ⟨k3.trans k1, fun y2 h2 => ?_⟩
    obtain ⟨z2, a1, a2⟩ := k2 y2 h2
    obtain ⟨z3, a3, a4⟩ := k4 z2 (a2.trans k1.symm)
    refine ⟨z3, ?_, a4.trans k1⟩
    rw [forC_lt hlt]
    exact Option.bind_eq_some_iff.2 ⟨z2, a1, a3⟩

omit [CommRing R] in
theorem wr_len {y z : List R} {i : Int} {v : R} (e : wr y i v = some z) :
    z.length = y.length ∧ ∀ (w : R) (y2 : List R), y2.length = y.length →
      ∃ z2, wr y2 i w = some z2 ∧ z2.length = y.length := by
  unfold wr at e ⊢
  split at e
  · rename_i h
    cases e
    refine ⟨by simp, fun w y2 h2 => ⟨_, if_pos ?_, by simpa using h2⟩⟩
    rw [h2]; exact h
  · cases e

omit [CommRing R] in
theorem rd_len {y : List R} {i : Int} {v : R} (e : rd y i = some v) {y2 : List R} (h2 : y2.length = y.length) :
    ∃ w, rd y2 i = some w := by
  obtain ⟨h1, h3⟩ := (rd_some_iff).1 e
  have hl : i.toNat < y.length := by
    by_contra hc
    rw [List.getElem?_eq_none (by omega)] at h3
    cases h3
  exact ⟨y2[i.toNat]'(by omega), (rd_some_iff).2 ⟨h1, List.getElem?_eq_getElem (by omega)⟩⟩

theorem addAt_len {y z : List R} {i : Int} {v : R} (e : addAt y i v = some z) :
    z.length = y.length ∧ ∀ y2 : List R, y2.length = y.length → ∃ z2, addAt y2 i v = some z2 ∧
      z2.length = y.length := by
  unfold addAt at e ⊢
  simp only [Option.bind_eq_bind, Option.bind_eq_some_iff] at e ⊢
  obtain ⟨a, e1, e2⟩ := e
  obtain ⟨k1, k2⟩ := wr_len e2
  refine ⟨k1, fun y2 h2 => ?_⟩
  obtain ⟨w, e3⟩ := rd_len e1 h2
  obtain ⟨z2, e4, e5⟩ := k2 (w + v) y2 h2
  exact ⟨z2, ⟨w, e3, e4⟩, e5⟩

theorem mergeBuf_len {n : Int} {y z b : List R} (e : mergeBuf n y b = some z) :
    z.length = y.length ∧ ∀ y2 : List R, y2.length = y.length → ∃ z2, mergeBuf n y2 b = some z2 ∧
      z2.length = y.length := by
  refine forC_len (fun i y z e => ?_) n _ 0 y z rfl e
  simp only [Option.bind_eq_bind, Option.bind_eq_some_iff] at e ⊢
  obtain ⟨v, e1, e2⟩ := e
  obtain ⟨k1, k2⟩ := addAt_len e2
  refine ⟨k1, fun y2 h2 => ?_⟩
  obtain ⟨z2, e4, e5⟩ := k2 y2 h2
  exact ⟨z2, ⟨v, e1, e4⟩, e5⟩

end lens

omit [StarRing R] in
theorem scaleY_len {beta : R} {n : Int} {y z : List R} (e : scaleY beta n y = some z) : z.length = y.length := by
  unfold scaleY at e
  rcases ite_or e with ⟨-, e⟩ | ⟨-, e⟩
  · refine (forC_len (f := fun i y => wr y i 0) (fun i y z e => ?_) n _ 0 y z rfl e).1
    exact ⟨(wr_len e).1, fun y2 h2 => (wr_len e).2 0 y2 h2⟩
  · rcases ite_or e with ⟨-, e⟩ | ⟨-, e⟩
    · refine (forC_len (fun i y z e => ?_) n _ 0 y z rfl e).1
      simp only [Option.bind_eq_bind, Option.bind_eq_some_iff] at e ⊢
      obtain ⟨v, e1, e2⟩ := e
      obtain ⟨k1, k2⟩ := wr_len e2
      refine ⟨k1, fun y2 h2 => ?_⟩
      obtain ⟨w, e3⟩ := rd_len e1 h2
      obtain ⟨z2, e4, e5⟩ := k2 (beta * w) y2 h2
      exact ⟨z2, ⟨w, e3, e4⟩, e5⟩
    · cases e; rfl

omit [StarRing R] [DecidableEq R] in
theorem csrmvtFold_len {fail : Nat → Bool} {K : Nat} {base : Int} {alpha : R} {m n : Int} {val : List R}
    {ind ptr : List Int} {x : List R} {nth : Nat} (l : List Nat) :
    ∀ {y z y2 : List R}, l.foldlM (fun y tid => do
      let b ← csrmvtBuf K base alpha m n val ind ptr x nth tid
      mergeBuf n y b) y = some z → y2.length = y.length →
      ∃ z2, l.foldlM (csrmvtStepM fail K base alpha m n val ind ptr x nth) y2 = some z2 ∧ z2.length = y.length := by
  induction l with
  | nil => intro y z y2 e h; exact ⟨y2, rfl, h⟩
  | cons t l ih =>
    intro y z y2 e h
    rw [List.foldlM_cons] at e
    simp only [Option.bind_eq_bind, Option.bind_eq_some_iff] at e
    obtain ⟨y1, ⟨b, e1, e2⟩, e3⟩ := e
    obtain ⟨k1, k2⟩ := mergeBuf_len e2
    obtain ⟨z2, e4, h4⟩ := k2 y2 h
    rw [List.foldlM_cons]
    by_cases hf : fail t = true
    · obtain ⟨z3, e5, h5⟩ := ih (y2 := y2) e3 (h.trans k1.symm)
      refine ⟨z3, ?_, h5.trans k1⟩
      have : csrmvtStepM fail K base alpha m n val ind ptr x nth y2 t = some y2 := by
        unfold csrmvtStepM; rw [if_pos hf]
      rw [this]
      exact e5
    · obtain ⟨z3, e5, h5⟩ := ih (y2 := z2) e3 (h4.trans k1.symm)
      refine ⟨z3, ?_, h5.trans k1⟩
      have : csrmvtStepM fail K base alpha m n val ind ptr x nth y2 t = some z2 := by
        unfold csrmvtStepM; rw [if_neg hf, e1]; exact e4
      rw [this]
      exact e5

omit [StarRing R] [DecidableEq R] in
theorem csrmvtStep_len {fail : Nat → Bool} {K : Nat} {base : Int} {alpha : R} {m n : Int} {val : List R}
    {ind ptr : List Int} {x : List R} {nth : Nat} (l : List Nat) :
    ∀ {y z : List R}, l.foldlM (csrmvtStepM fail K base alpha m n val ind ptr x nth) y = some z →
      z.length = y.length := by
  induction l with
  | nil => intro y z e; cases e; rfl
  | cons t l ih =>
    intro y z e
    rw [List.foldlM_cons] at e
    obtain ⟨y1, e1, e2⟩ := Option.bind_eq_some_iff.1 e
    rw [ih e2]
    unfold csrmvtStepM at e1
    rcases ite_or e1 with ⟨-, e1⟩ | ⟨-, e1⟩
    · cases e1; rfl
    · obtain ⟨b, -, e1⟩ := Option.bind_eq_some_iff.1 e1
      exact (mergeBuf_len e1).1

omit [StarRing R] [DecidableEq R] in
theorem csrmvtStep_plenty {fail : Nat → Bool} {K : Nat} {base : Int} {alpha : R} {m n : Int} {val : List R}
    {ind ptr : List Int} {x : List R} {nth : Nat} (l : List Nat) (hl : l.any fail = false) :
    ∀ y, l.foldlM (csrmvtStepM fail K base alpha m n val ind ptr x nth) y = l.foldlM (fun y tid => do
      let b ← csrmvtBuf K base alpha m n val ind ptr x nth tid
      mergeBuf n y b) y := by
  induction l with
  | nil => intro y; rfl
  | cons t l ih =>
    intro y
    rw [List.any_cons, Bool.or_eq_false_iff] at hl
    rw [List.foldlM_cons, List.foldlM_cons]
    have : csrmvtStepM fail K base alpha m n val ind ptr x nth y t = (do
      let b ← csrmvtBuf K base alpha m n val ind ptr x nth t
      mergeBuf n y b) := by
      unfold csrmvtStepM
      rw [if_neg (by simp [hl.1])]
    rw [this]
    congr 1
    funext y1
    exact ih hl.2 y1

omit [StarRing R] in
theorem csrmvtKtM_cases (fail : Nat → Bool) (K : Nat) (base : Int) (alpha : R) (m n : Int) (val : List R)
    (ind ptr : List Int) (x : List R) (beta : R) (y : List R) (nth : Nat) (ord : List Nat) :
    csrmvtKtM fail K base alpha m n val ind ptr x beta y nth ord
      = done (csrmvtKt K base alpha m n val ind ptr x beta y nth ord) ∨
    ord.any fail = true ∧ ∃ y', csrmvtKtM fail K base alpha m n val ind ptr x beta y nth ord
      = some (.memoryError, y') ∧ y'.length = y.length := by
  unfold csrmvtKtM csrmvtKt done
  cases e : scaleY beta n y with
  | none => exact .inl rfl
  | some y1 =>
    simp only [Option.bind_eq_bind, Option.bind_some]
    cases hf : ord.any fail with
    | false =>
      left
      rw [csrmvtStep_plenty ord hf]
      cases ord.foldlM (fun y tid => do
        let b ← csrmvtBuf K base alpha m n val ind ptr x nth tid
        mergeBuf n y b) y1 <;> rfl
    | true =>
      cases e2 : ord.foldlM (csrmvtStepM fail K base alpha m n val ind ptr x nth) y1 with
      | some z => exact .inr ⟨rfl, z, rfl, (csrmvtStep_len ord e2).trans (scaleY_len e)⟩
      | none =>
        left
        cases e3 : ord.foldlM (fun y tid => do
            let b ← csrmvtBuf K base alpha m n val ind ptr x nth tid
            mergeBuf n y b) y1 with
        | none => 
          simp only [Option.bind_eq_bind] at e3
          simp only [e3]; rfl
        | some z =>
          obtain ⟨z2, e4, -⟩ := csrmvtFold_len (fail := fail) ord e3 (y2 := y1) rfl
          rw [e2] at e4
          cases e4

omit [StarRing R] in
theorem csrmvDM_cases (o : Oom) (k : MvSel R) (e : Nat) (alpha : R) (c : MCopy R) (diag fill : Nat)
    (iurow : Option (List Int)) (x : List R) (beta : R) (y : List R) :
    csrmvDM o k e alpha c diag fill iurow x beta y = csrmvD k e alpha c diag fill iurow x beta y ∨
    (e = gt ∧ k.ord.any o.buf = true ∧ ∃ y', csrmvDM o k e alpha c diag fill iurow x beta y = some (.memoryError, y') ∧
      y'.length = y.length) := by
  unfold csrmvDM
  by_cases h : e = gt
  · subst h
    rw [if_pos rfl]
    unfold csrmvD
    rw [if_neg (by decide), if_pos rfl]
    cases k.gt with
    | none => exact .inl rfl
    | some K =>
      dsimp only
      rcases csrmvtKtM_cases o.buf K c.base alpha c.m c.n c.val c.ind c.ptr x beta y k.nth k.ord with h | h
      · exact .inl h
      · exact .inr ⟨rfl, h⟩
  · rw [if_neg h]; exact .inl rfl

/-- what a product without enough memory leaves -/
def OutOfMem (ta : Bool) (A : Csr R) (some? : Bool) (y : List R) (r : Status × List R × MvHandle R) : Prop :=
  r.1 = .memoryError ∧ HandleOk ta A r.2.2 ∧ r.2.1.length = y.length ∧ (some? = false → r.2.1 = y)

theorem mvCsrM_cases {k : MvSel R} {req : Nat} {alpha beta : R} {H : MvHandle R} (hH : HandleOk ta A H) {d : Descr}
    {i : Nat} {c : MCopy R} {opt : Bool} {iu : Option (List Int)} {x y : List R} :
    mvCsrM o k req alpha H d i c opt iu x beta y = mvCsr k req alpha H d i c opt iu x beta y ∨
    ∃ r, mvCsrM o k req alpha H d i c opt iu x beta y = some r ∧ OutOfMem ta A (k.ord.any o.buf) y r := by
  have hgn : ∀ (c : MCopy R) (a b : Nat), csrmvDM o k gn alpha c a b iu x beta y
      = csrmvD k gn alpha c a b iu x beta y := fun c a b => by
    rcases csrmvDM_cases o k gn alpha c a b iu x beta y with h | ⟨h, -⟩
    · exact h
    · cases h
  unfold mvCsrM mvCsr
  by_cases h1 : c.doid = req
  · rw [if_pos h1, if_pos h1]
    simp only [hgn]
    exact .inl trivial
  · rw [if_neg h1, if_neg h1]
    rcases csrmvDM_cases o k (effDoid c.doid req) alpha c d.diag
      (if c.doid = gt ∨ c.doid = gh then (if d.fill = 1 then 0 else if d.fill = 0 then 1 else d.fill)
        else d.fill) iu x beta y with h | ⟨-, h, y', e, hl⟩
    · rw [h]; exact .inl rfl
    · rw [e]
      exact .inr ⟨_, rfl, rfl, hH, hl, fun hb => by rw [h] at hb; cases hb⟩

theorem mvHybM_cases {isa : Isa} {alpha beta : R} {H : MvHandle R} (hH : HandleOk ta A H) {base : Int} {x y : List R}
    {b : Bool} :
    mvHybM o isa alpha H base x beta y = mvHyb isa alpha H base x beta y ∨
    ∃ r, mvHybM o isa alpha H base x beta y = some r ∧ OutOfMem ta A b y r := by
  unfold mvHybM
  split
  · split
    · exact .inr ⟨_, rfl, rfl, hH, rfl, fun _ => rfl⟩
    · exact .inl rfl
  · exact .inl rfl

theorem mvOnM_cases {isa : Isa} {k : MvSel R} {req op : Nat} {alpha beta : R} {H : MvHandle R} (hH : HandleOk ta A H)
    {d : Descr} {i : Nat} {x y : List R} :
    mvOnM o isa k req op alpha H d i x beta y = mvOn isa k req op alpha H d i x beta y ∨
    ∃ r, mvOnM o isa k req op alpha H d i x beta y = some r ∧ OutOfMem ta A (k.ord.any o.buf) y r := by
  unfold mvOnM mvOn
  cases hi : H.mats[i]? with
  | none => exact .inl rfl
  | some s =>
    cases s with
    | csr c opt iu => exact mvCsrM_cases hH
    | blk base nR ptr ind masks val => exact .inl rfl
    | hyb base w em ec ev map => exact mvHybM_cases hH
    | br4 base B => exact .inl rfl

theorem mvRunM_cases {srt : (Int → Int → Bool) → List Int → List Int} (hsrt : StdSort srt) {g : Garb R} (hA : A.WF)
    (hd : A.OneDiag) (hnd : A.Grouped ∨ A.NoDup) (hn : o.sort = true → A.Grouped) {H : MvHandle R}
    (hH : HandleOk ta A H) {isa : Isa} {k : MvSel R} {op : Int} {alpha beta : R} {d : Descr} {x y : List R} :
    mvRunM o isa k srt g op alpha H d x beta y = mvRun isa k srt g op alpha H d x beta y ∨
    ∃ r, mvRunM o isa k srt g op alpha H d x beta y = some r ∧ OutOfMem ta A (k.ord.any o.buf) y r := by
  unfold mvRunM mvRun
  by_cases h0 : H.nulls ≠ 0
  · rw [if_pos h0, if_pos h0]; exact .inl rfl
  rw [if_neg h0, if_neg h0]
  cases hb : getBest isa k (getDoid k.real d.type d.fill op) H.mats with
  | none => exact .inl rfl
  | some i =>
    dsimp only
    have key : mvReadyM o srt g (getDoid k.real d.type d.fill op) H d i
        = (mvReady srt g (getDoid k.real d.type d.fill op) H d i).map (liftH H) ∨
      ∃ H', mvReadyM o srt g (getDoid k.real d.type d.fill op) H d i = some (.error (.memoryError, H')) ∧
        HandleOk ta A H' := by
      unfold mvReadyM mvReady
      cases H.mats[i]? with
      | none => exact .inl rfl
      | some s =>
        dsimp only
        by_cases h1 : d.type ≠ 0 ∧ needsClean (getDoid k.real d.type d.fill op) s
        · rw [if_pos h1, if_pos h1]
          exact csrCscOptimizeM_cases g.i g.v hA hd hn hH
        · rw [if_neg h1, if_neg h1]; exact .inl rfl
    rcases key with h | ⟨H', h, hk⟩
    · rw [h]
      cases e2 : mvReady srt g (getDoid k.real d.type d.fill op) H d i with
      | none => exact .inl rfl
      | some q =>
        cases q with
        | error s => exact .inl rfl
        | ok q =>
          refine mvOnM_cases ?_
          unfold mvReady at e2
          split at e2
          · cases e2
          · rcases ite_or e2 with ⟨-, e2⟩ | ⟨-, e2⟩
            · obtain ⟨i, H1, c, iu, e3, h1, -⟩ := csrCscOptimize_spec hsrt g.i g.v hA hd hnd hH
              rw [e3] at e2
              cases e2; exact h1
            · cases e2; exact hH
    · rw [h]
      exact .inr ⟨_, rfl, rfl, hk, rfl, fun _ => rfl⟩

/-- **products**: as with enough memory, or memory_error, a correct handle, and `y` as it was unless a thread of a
transposed product had no buffer -/
theorem mvM_cases {srt : (Int → Int → Bool) → List Int → List Int} (hsrt : StdSort srt) {g : Garb R} (hA : A.WF)
    (hd : A.OneDiag) (hnd : A.Grouped ∨ A.NoDup) (hn : o.sort = true → A.Grouped) {H : MvHandle R}
    (hH : HandleOk ta A H) {isa : Isa} {k : MvSel R} {same : Bool} {op : Int} {alpha beta : Option R}
    {d : Option Descr} {x y : Option (List R)} :
    mvM o isa k srt g same op alpha (some H) d x beta y = mv isa k srt g same op alpha (some H) d x beta y ∨
    ∃ y0 r, y = some y0 ∧ mvM o isa k srt g same op alpha (some H) d x beta y = some (r.1, some r.2.1, some r.2.2) ∧
      OutOfMem ta A (k.ord.any o.buf) y0 r := by
  unfold mvM mv
  rcases alpha with _ | alpha <;> rcases beta with _ | beta <;> rcases d with _ | d <;>
    rcases x with _ | x <;> rcases y with _ | y <;> try exact .inl rfl
  dsimp only
  iterate 7
    refine ite_step (S := fun u => ∃ y0 r, some y = some y0 ∧ u = some (r.1, some r.2.1, some r.2.2) ∧
      OutOfMem ta A (k.ord.any o.buf) y0 r) ?_
  rcases mvRunM_cases (isa := isa) (k := k) (g := g) (op := if k.real = true ∧ op = 113 then 112 else op)
    (alpha := alpha) (beta := beta) (d := d) (x := x) (y := y) hsrt hA hd hnd hn hH with h | ⟨r, h, hr⟩
  · rw [h]; exact .inl rfl
  · rw [h]
    exact .inr ⟨y, r, rfl, rfl, hr⟩

end Verif
