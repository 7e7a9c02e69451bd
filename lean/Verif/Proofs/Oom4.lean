/-
Running out of memory: with enough memory the calls are those of the model without failures.
-/
import Verif.Proofs.Oom3

namespace Verif
open Model

section ring
variable {R : Type} [DecidableEq R] [CommRing R]

theorem csrOptimizeM_plenty (srt : (Int → Int → Bool) → List Int → List Int) (gi : Nat → Int)
    (gv : Nat → R) (m n nnz base : Int) (ptr ind : List Int) (val : List R) :
    csrOptimizeM .plenty srt gi gv m n nnz base ptr ind val
      = (csrOptimize srt gi gv m n nnz base ptr ind val).map liftE := by
  unfold csrOptimizeM csrOptimize
  cases matCheck m n nnz (some ptr) (some ind) (some val) .general base false with
  | none => rfl
  | some r =>
    cases r with
    | error e => rfl
    | ok q =>
      simp only [Option.bind_eq_bind, Option.bind_some]
      cases checkSortDiag m n base (some ptr) (some ind) with
      | none => rfl
      | some sd =>
        simp only [Option.bind_some]
        by_cases h1 : sd.1 ≠ .success
        · rw [if_pos h1, if_pos h1]; rfl
        rw [if_neg h1, if_neg h1]
        by_cases h2 : sd.2.1 = true ∧ sd.2.2 = true
        · rw [if_pos h2, if_pos h2, if_neg (by decide)]
          cases csrIndices gi m base ptr ind <;> rfl
        rw [if_neg h2, if_neg h2, if_neg (by decide)]
        cases copyZeroBased gi gv m nnz base ptr ind val with
        | none => rfl
        | some c =>
          simp only [Option.bind_some]
          have : optSortM Oom.plenty.sort srt m n nnz base ptr ind val sd.2.1 sd.2.2 c
              = optSort srt m n nnz base ptr ind val sd.2.1 sd.2.2 c := rfl
          rw [this]
          cases optSort srt m n nnz base ptr ind val sd.2.1 sd.2.2 c with
          | none => rfl
          | some d =>
            simp only [Option.bind_some]
            by_cases h3 : d.1 ≠ .success
            · rw [if_pos h3, if_pos h3]; rfl
            rw [if_neg h3, if_neg h3]
            unfold optTailM
            rw [if_neg (by rintro ⟨-, h⟩; cases h)]
            simp only [Option.bind_eq_bind]
            cases optFill gi gv m n nnz d.2.2.2 c.1 d.2.1 d.2.2.1 with
            | none => rfl
            | some f =>
              simp only [Option.bind_some]
              rw [if_neg (by decide)]
              cases csrIndices gi m 0 f.1 f.2.1 <;> rfl

theorem csrCscOptimizeM_plenty (srt : (Int → Int → Bool) → List Int → List Int) (gi : Nat → Int)
    (gv : Nat → R) (H : MvHandle R) :
    csrCscOptimizeM .plenty srt gi gv H = (csrCscOptimize srt gi gv H).map (liftH H) := by
  unfold csrCscOptimizeM csrCscOptimize
  cases optIdx H.mats with
  | some i => rfl
  | none =>
    rcases H.mats with _ | ⟨s, rest⟩
    · rfl
    cases s with
    | csr c opt iu =>
      dsimp only
      rw [csrOptimizeM_plenty]
      cases csrOptimize srt gi gv c.m c.n H.raw.nnz c.base c.ptr c.ind c.val with
      | none => rfl
      | some r =>
        cases r with
        | error e => rfl
        | ok p =>
          simp only [Option.map_some, liftE, Option.bind_eq_bind, Option.bind_some]
          split <;> rfl
    | blk base nR ptr ind masks val => rfl
    | hyb base w em ec ev map => rfl
    | br4 base B => rfl

theorem csrmvDM_plenty (k : MvSel R) (e : Nat) (alpha : R) (c : MCopy R) (diag fill : Nat)
    (iurow : Option (List Int)) (x : List R) (beta : R) (y : List R) :
    csrmvDM .plenty k e alpha c diag fill iurow x beta y = csrmvD k e alpha c diag fill iurow x beta y := by
  rcases csrmvDM_cases .plenty k e alpha c diag fill iurow x beta y with h | ⟨-, h, -⟩
  · exact h
  · rw [List.any_eq_true] at h
    obtain ⟨_, -, h⟩ := h
    cases h

theorem mvM_plenty (srt : (Int → Int → Bool) → List Int → List Int) (g : Garb R) (A : Option (MvHandle R)) (isa : Isa)
    (k : MvSel R) (same : Bool) (op : Int) (alpha beta : Option R) (d : Option Descr) (x y : Option (List R)) :
    mvM .plenty isa k srt g same op alpha A d x beta y = mv isa k srt g same op alpha A d x beta y := by
  have hcsr : ∀ req alpha H d i c opt iu x beta y, mvCsrM .plenty k req alpha H d i c opt iu x beta y
      = mvCsr k req alpha H d i c opt iu x beta y := by
    intros
    unfold mvCsrM mvCsr
    simp only [csrmvDM_plenty]
  have hhyb : ∀ (alpha : R) H base x beta y, mvHybM .plenty isa alpha H base x beta y
      = mvHyb isa alpha H base x beta y := by
    intros
    unfold mvHybM
    split
    · rw [if_neg (by rintro ⟨h, -⟩; cases h)]
    · rfl
  have hon : ∀ req op alpha H d i x beta y, mvOnM .plenty isa k req op alpha H d i x beta y
      = mvOn isa k req op alpha H d i x beta y := by
    intros
    unfold mvOnM mvOn
    simp only [hcsr, hhyb]
    rfl
  have hrun : ∀ op alpha H d x beta y, mvRunM .plenty isa k srt g op alpha H d x beta y
      = mvRun isa k srt g op alpha H d x beta y := by
    intro op alpha H d x beta y
    unfold mvRunM mvRun
    split
    · rfl
    cases getBest isa k (getDoid k.real d.type d.fill op) H.mats with
    | none => rfl
    | some i =>
      dsimp only
      unfold mvReadyM mvReady
      rw [csrCscOptimizeM_plenty]
      cases H.mats[i]? with
      | none => rfl
      | some s =>
        dsimp only
        split
        · cases csrCscOptimize srt g.i g.v H with
          | none => rfl
          | some r =>
            cases r with
            | error e => rfl
            | ok q => exact hon _ _ _ _ _ _ _ _ _
        · exact hon _ _ _ _ _ _ _ _ _
  unfold mvM mv
  simp only [hrun]
  rfl

theorem dotmvM_plenty (srt : (Int → Int → Bool) → List Int → List Int) (g : Garb R) (A : Option (MvHandle R))
    (isa : Isa) (k : MvSel R) (dot : Option (DotKer R)) (same : Bool) (op : Int) (alpha beta : R)
    (d : Option Descr) (x y : Option (List R)) (out : Option R) :
    dotmvM .plenty isa k dot srt g same op alpha A d x beta y out
      = dotmv isa k dot srt g same op alpha A d x beta y out := by
  unfold dotmvM dotmv
  simp only [mvM_plenty]
  rfl

theorem csrmmHM_plenty (w : Nat) (isReal : Bool) (tm : MmTeam) (ker : MmKernel R) (g : Garb R) (cj : R → R)
    (same : Bool) (op : Int) (alpha : R) (A : Option (MvHandle R)) (d : Option Descr) (order : Int)
    (B : Option (List R)) (n ldb : Int) (beta : R) (C : Option (List R)) (ldc : Int) :
    csrmmHM .plenty w isReal tm ker g cj same op alpha A d order B n ldb beta C ldc
      = csrmmH w isReal tm ker g cj same op alpha A d order B n ldb beta C ldc := by
  have hrun : ∀ c op M copies d C, mmRunM .plenty w isReal tm ker g c op M copies d C
      = mmRun w isReal tm ker g c op M copies d C := by
    intro c op M copies d C
    unfold mmRunM mmRun
    simp only [Oom.plenty, Bool.false_eq_true, false_and, if_false]
    rfl
  unfold csrmmHM csrmmH csrmmM csrmm
  simp only [hrun]
  rfl

theorem orderMatM_plenty (srt : (Int → Int → Bool) → List Int → List Int) (A : Option (MvHandle R)) :
    orderMatM .plenty srt A = orderMat srt A := by
  unfold orderMatM orderMat
  simp only [Oom.plenty, Bool.false_eq_true, or_self, if_false]
  rfl

theorem optimizeM_plenty (isa : Isa) (dbl unres : Bool) (srt : (Int → Int → Bool) → List Int → List Int)
    (ch : MvChoice) (g : Garb R) (g' : MvGarb R) (cj re : R → R) (H : MvHandle R) (hs : List MvHint) :
    optimizeM .plenty isa dbl unres srt ch g g' cj re H hs = optimize isa dbl unres srt ch g g' cj re H hs := by
  have hh : ∀ M h copies, transformHintM false g cj re M h copies = transformHint g cj re M h copies := by
    intro M h copies
    have : ∀ d fill doid, makeCopyM false g cj re M d fill doid = makeCopy g cj re M d fill doid := by
      intro d fill doid
      unfold makeCopyM
      simp only [Bool.false_eq_true, false_and, if_false]
    unfold transformHintM transformHint
    simp only [this]
    rfl
  have ht : ∀ M hs copies, matrixTransformM g cj re M (fun _ => false) hs copies
      = matrixTransform g cj re M hs copies := by
    intro M hs
    induction hs with
    | nil => intro copies; rfl
    | cons h hs ih =>
      intro copies
      unfold matrixTransformM
      rw [matrixTransform, hh]
      simp only [ih]
  have hmv : ∀ H, optimizeMvM .plenty isa dbl ch g' H = optimizeMv isa dbl ch g' H := by
    intro H
    unfold optimizeMvM optimizeMv
    split
    · rfl
    rcases H.mats with _ | ⟨s, rest⟩
    · rfl
    cases s with
    | csr c opt iu =>
      dsimp only
      split
      · rfl
      have e1 : optBlkM .plenty isa ch g' H c = (optBlk isa ch g' H c).map (fun H => (Status.success, H)) := by
        unfold optBlkM optBlk
        split
        · cases optBlksize H.raw.um H.raw.nnz c.base (some c.ptr) (some c.ind) (some 0) ch.early ch.pick4 ch.pick2 with
          | none => rfl
          | some b =>
            simp only [Option.bind_eq_bind, Option.bind_some]
            split
            · cases b.2 with
              | none => rfl
              | some tot =>
                simp only [Option.bind_some, Oom.plenty, csr2blkcsrM, Bool.false_eq_true, if_false, Option.bind_eq_bind]
                cases csr2blkcsr H.raw.um H.raw.un H.raw.nnz (some c.ptr) (some c.ind) (some c.val)
                  ⟨some (alloc (H.raw.um + 1).toNat g'.g1), some (alloc H.raw.nnz.toNat g'.g2),
                    some (alloc (H.raw.nnz + b.1 * 8).toNat g'.gv), some (alloc (tot * b.1).toNat g'.gm)⟩ b.1
                  c.base with
                | none => rfl
                | some r =>
                  simp only [Option.bind_some]
                  rcases r.2 with ⟨_ | p, _ | i, _ | v, _ | m⟩ <;> rfl
            · rfl
        · rfl
      rw [e1]
      cases optBlk isa ch g' H c with
      | none => rfl
      | some H1 =>
        simp only [Option.map_some, Option.bind_eq_bind, Option.bind_some]
        rw [if_neg (by simp)]
        unfold optFmtM optFmt optBr4M optHybM
        simp only [Oom.plenty, Bool.false_eq_true, if_false]
        split
        · rfl
        · split <;> rfl
    | blk base nR ptr ind masks val => rfl
    | hyb base w em ec ev map => rfl
    | br4 base B => rfl
  unfold optimizeM optimize optTransformM optTransform optActM optAct
  simp only [hmv, csrCscOptimizeM_plenty]
  have : Oom.plenty.hint = fun _ => false := rfl
  rw [this]
  simp only [ht]
  split
  · rfl
  congr 1
  funext t
  split
  · rfl
  congr 1
  split
  · rfl
  split
  · cases csrCscOptimize srt g.i g.v t.2.1 with
    | none => rfl
    | some r => cases r <;> rfl
  · rfl

end ring

section field
variable {R : Type} [Field R] [DecidableEq R]

theorem trsvHM_plenty (srt : (Int → Int → Bool) → List Int → List Int) (g : Garb R) (A : Option (MvHandle R))
    (isReal : Bool) (w : Nat) (cjg : R → R) (im : TrsvImpl R) (same : Bool) (op : Int)
    (alpha : R) (d : Option Descr) (b : Option (List R)) (incb : Int) (x : Option (List R)) (incx : Int) :
    trsvHM .plenty isReal w cjg srt g im same op alpha A d b incb x incx
      = trsvH isReal w cjg srt g im same op alpha A d b incb x incx := by
  unfold trsvHM trsvH
  rcases A with _ | H <;> rcases x with _ | x <;> rcases b with _ | b <;> rcases d with _ | d <;> try rfl
  dsimp only
  rw [csrCscOptimizeM_plenty]
  cases csrCscOptimize srt g.i g.v H with
  | none => rfl
  | some r => cases r <;> rfl

theorem trsmHM_plenty (srt : (Int → Int → Bool) → List Int → List Int) (g : Garb R) (A : Option (MvHandle R))
    (isReal : Bool) (w : Nat) (cjg : R → R) (im : TrsvImpl R) (same : Bool) (sched : List Nat)
    (op : Int) (alpha : R) (d : Option Descr) (order : Int) (B X : Option (List R)) (n ldb ldx : Int) :
    trsmHM .plenty isReal w cjg srt g im same sched op alpha A d order B n ldb X ldx
      = trsmH isReal w cjg srt g im same sched op alpha A d order B n ldb X ldx := by
  unfold trsmHM trsmH
  simp only [trsvHM_plenty]
  rcases A with _ | H <;> rcases X with _ | X <;> rcases B with _ | B <;> rcases d with _ | d <;> try rfl
  dsimp only
  rw [csrCscOptimizeM_plenty]
  cases csrCscOptimize srt g.i g.v H with
  | none => rfl
  | some r => cases r <;> rfl

theorem symgsM_plenty (E : GsEnv R) (same : Bool) (op : Int) (A : Option (MvHandle R)) (d : Option Descr)
    (alpha : R) (b x y : Option (List R)) (fuse : Bool) :
    symgsM .plenty E same op A d alpha b x y fuse = symgs E same op A d alpha b x y fuse := by
  have h1 : gsMvM (R := R) .plenty = gsMv := by
    funext E op alpha H d x y
    unfold gsMvM gsMv
    rw [mvM_plenty]
  have h2 : gsTrsvM (R := R) .plenty = gsTrsv := by
    funext E op H d b x
    unfold gsTrsvM gsTrsv
    rw [trsvHM_plenty]
  have h3 : gsFuseM (R := R) .plenty = gsFuse := by
    unfold gsFuseM gsFuse
    simp only [h1]
  have h4 : gsTriM (R := R) .plenty = gsTri := by
    unfold gsTriM gsTri
    simp only [h2, h3]
  have h5 : gsBackM (R := R) .plenty = gsBack := by
    unfold gsBackM gsBack
    simp only [h1, h2, h3]
  have h6 : gsSweepsM (R := R) .plenty = gsSweeps := by
    unfold gsSweepsM gsSweeps
    simp only [h1, h2, h5]
  have h7 : symgsRefM (R := R) .plenty = symgsRef := by
    funext E op alpha H d b x y fuse
    unfold symgsRefM symgsRef
    rw [if_neg (by decide), h4, h6]
  unfold symgsM symgs
  rw [h7]
  rcases x with _ | x <;> rcases b with _ | b <;> rcases A with _ | H <;> rcases d with _ | d <;> try rfl
  dsimp only
  rw [csrCscOptimizeM_plenty]
  cases csrCscOptimize E.srt E.g.i E.g.v H with
  | none => rfl
  | some r => cases r <;> rfl

end field
end Verif
