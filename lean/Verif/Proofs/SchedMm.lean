import Verif.Model.SchedMm
import Verif.Proofs.Csrmm2

/-!
The parallel regions of the sparse times dense product, one access at a time.
-/

namespace Verif
open Model

variable {R : Type}

/-! ### building blocks -/

section blocks
variable {own : Int → Prop}

theorem updP_exec [Zero R] [Add R] [Mul R] (k : Int) (f : R → R) (C : List R) :
    (updP k f).exec1 C = (rd C k).bind fun c => wr C k (f c) := by
  unfold updP
  rw [ThP.exec1_read]
  refine congrArg _ (funext fun c => ?_)
  rw [ThP.exec1_write]
  cases wr C k (f c) <;> rfl

theorem updP_safe [Zero R] [Add R] [Mul R] {k : Int} (h : own k) (f : R → R) :
    (updP k f).Safe own (fun _ => True) := ⟨h, fun _ => ⟨h, trivial⟩⟩

theorem seqP_exec {α : Type} (f : α → ThP Int R Unit) (l : List α) (C : List R) :
    (seqP f l).exec1 C = l.foldlM (fun C x => (f x).exec1 C) C := by
  induction l generalizing C with
  | nil => rfl
  | cons x l ih =>
    show ((f x).bind _).exec1 C = _
    rw [ThP.exec1_seq, List.foldlM_cons]
    exact congrArg _ (funext fun C => ih C)

theorem seqP_safe {α : Type} {f : α → ThP Int R Unit} {l : List α}
    (h : ∀ x ∈ l, (f x).Safe own (fun _ => True)) : (seqP f l).Safe own (fun _ => True) := by
  induction l with
  | nil => exact trivial
  | cons x l ih => exact (h x (by simp)).bind fun _ _ => ih fun y hy => h y (by simp [hy])

theorem readsP_exec (l : List Int) (C : List R) :
    (readsP l).exec C = (l.mapM (rd C)).map fun v => (v, C) := by
  induction l with
  | nil => rfl
  | cons k l ih =>
    show (rd C k).bind _ = _
    rw [List.mapM_cons]
    cases rd C k with
    | none => rfl
    | some v =>
      show ((readsP l).bind _).exec C = _
      rw [ThP.exec_bind, ih]
      cases l.mapM (rd C) <;> rfl

theorem readsP_safe {l : List Int} (h : ∀ k ∈ l, own k) :
    (readsP (R := R) l).Safe own (fun v => v.length = l.length) := by
  induction l with
  | nil => rfl
  | cons k l ih =>
    refine ⟨h k (by simp), fun v => (ih fun k hk => h k (by simp [hk])).bind fun vs hvs => ?_⟩
    show (v :: vs).length = _
    simp [hvs]

end blocks

/-! ### the programs do what the functions do -/

section execs
variable [Zero R] [Add R] [Mul R]

theorem mmColP_exec (a : MmIn R) (j : Int) (C : List R) :
    (mmColP a j).exec1 C = forC 0 a.m (mmColCell a j) C := by
  unfold mmColP
  rw [ThP.exec1_forP]
  refine congrArg (fun f => forC 0 a.m f C) (funext fun i => funext fun C => ?_)
  unfold mmColCellP mmColCell
  rw [ThP.exec1_lift]
  refine congrArg _ (funext fun lo => ?_)
  rw [ThP.exec1_lift]
  refine congrArg _ (funext fun hi => ?_)
  rw [ThP.exec1_lift]
  exact congrArg _ (funext fun s => updP_exec _ _ _)

theorem mmScaleRowP_exec (a : MmIn R) (idxC : Int) (C : List R) :
    (mmScaleRowP a idxC).exec1 C = mmScaleRow a idxC C := by
  unfold mmScaleRowP mmScaleRow
  rw [ThP.exec1_forP]
  exact congrArg (fun f => forC 0 a.n f C) (funext fun i => funext fun C => updP_exec _ _ _)

theorem mmAxpyRowP_exec (a : MmIn R) (idxC p : Int) (C : List R) :
    (mmAxpyRowP a idxC p).exec1 C = mmAxpyRow a idxC p C := by
  unfold mmAxpyRowP mmAxpyRow
  rw [ThP.exec1_lift]
  refine congrArg _ (funext fun c => ?_)
  rw [ThP.exec1_lift]
  refine congrArg _ (funext fun v => ?_)
  rw [ThP.exec1_forP]
  refine congrArg (fun f => forC 0 a.n f C) (funext fun i => funext fun C => ?_)
  rw [ThP.exec1_lift]
  exact congrArg _ (funext fun b => updP_exec _ _ _)

theorem mmRowOneP_exec (a : MmIn R) (i : Int) (C : List R) : (mmRowOneP a i).exec1 C = mmRowOne a i C := by
  unfold mmRowOneP mmRowOne
  rw [ThP.exec1_lift]
  refine congrArg _ (funext fun lo => ?_)
  rw [ThP.exec1_lift]
  refine congrArg _ (funext fun hi => ?_)
  rw [ThP.exec1_seq, mmScaleRowP_exec]
  refine congrArg _ (funext fun C => ?_)
  rw [ThP.exec1_forP]
  exact congrArg (fun f => forC lo hi f C) (funext fun j => funext fun C => mmAxpyRowP_exec _ _ _ _)

theorem mmRowVecP_exec (K : Nat) (a : MmIn R) (idxC : Int) (blkr : Nat) (es : List (Int × R)) (j : Int) (C : List R) :
    (mmRowVecP K a idxC blkr es j).exec1 C = mmRowVec K a idxC blkr es j C := by
  unfold mmRowVecP mmRowVec
  rw [ThP.exec1_bind, readsP_exec, List.mapM_map]
  show _ = (vload C (idxC + j) K).bind _
  have e : vload C (idxC + j) K = (List.range K).mapM (fun (l : Nat) => rd C (idxC + j + (l : Int))) := rfl
  rw [e]
  show ((List.mapM (rd C ∘ _) _).map _).bind _ = _
  cases h : (List.range K).mapM (fun (l : Nat) => rd C (idxC + j + (l : Int))) with
  | none =>
    have : List.mapM (rd C ∘ fun (l : Nat) => idxC + j + (l : Int)) (List.range K) = none := h
    rw [this]; rfl
  | some c =>
    have : List.mapM (rd C ∘ fun (l : Nat) => idxC + j + (l : Int)) (List.range K) = some c := h
    rw [this]
    show ((ThP.lift _).bind _).exec1 C = _
    rw [ThP.exec1_lift]
    refine congrArg _ (funext fun bs => ?_)
    rw [ThP.exec1_forP]
    unfold vstore
    refine congrArg (fun f => forC 0 _ f C) (funext fun l => funext fun C => ?_)
    rw [ThP.exec1_lift]
    refine congrArg _ (funext fun x => ?_)
    rw [ThP.exec1_write]
    cases wr C (idxC + j + l) x <;> rfl

theorem mmRowRemP_exec (a : MmIn R) (idxC : Int) (blkr : Nat) (es : List (Int × R)) (j : Int) (C : List R) :
    (mmRowRemP a idxC blkr es j).exec1 C = mmRowRem a idxC blkr es j C := by
  unfold mmRowRemP mmRowRem
  rw [seqP_exec]
  refine congrArg (fun f => (es.take blkr).foldlM f C) (funext fun C => funext fun e => ?_)
  rw [ThP.exec1_lift]
  exact congrArg _ (funext fun b => updP_exec _ _ _)

theorem mmRowBlkP_exec (K : Nat) (a : MmIn R) (idxC e idx : Int) (C : List R) :
    (mmRowBlkP K a idxC e idx).exec1 C = mmRowBlk K a idxC e idx C := by
  unfold mmRowBlkP mmRowBlk
  rw [ThP.exec1_lift]
  refine congrArg _ (funext fun es => ?_)
  rw [ThP.exec1_seq, ThP.exec1_forSP]
  have e1 : (fun i C => (mmRowVecP K a idxC (mmBlkEnts e idx) es i).exec1 C)
      = mmRowVec K a idxC (mmBlkEnts e idx) es := funext fun i => funext fun C => mmRowVecP_exec ..
  rw [e1]
  refine congrArg _ (funext fun C => ?_)
  rw [ThP.exec1_forP]
  exact congrArg (fun f => forC _ a.n f C) (funext fun j => funext fun C => mmRowRemP_exec ..)

theorem mmRowKtOneP_exec (K : Nat) (a : MmIn R) (i : Int) (C : List R) :
    (mmRowKtOneP K a i).exec1 C = mmRowKtOne K a i C := by
  unfold mmRowKtOneP mmRowKtOne
  rw [ThP.exec1_seq, mmScaleRowP_exec]
  refine congrArg _ (funext fun C => ?_)
  rw [ThP.exec1_lift]
  refine congrArg _ (funext fun lo => ?_)
  rw [ThP.exec1_lift]
  refine congrArg _ (funext fun hi => ?_)
  rw [ThP.exec1_forSP]
  exact congrArg (fun f => forS lo hi 4 f C) (funext fun j => funext fun C => mmRowBlkP_exec ..)

theorem mmPutP_exec (a : MmIn R) (blkr j q i : Int) (d : R) (C : List R) :
    (mmPutP a blkr j q i d).exec1 C = mmPut a blkr j q i d C := by
  unfold mmPutP mmPut
  by_cases h : q < blkr
  · rw [if_pos h, if_pos h]; exact updP_exec _ _ _
  · rw [if_neg h, if_neg h]; rfl

theorem mmColBlkRowP_exec (V : Vec R) (K : Nat) (a : MmIn R) (blkr j i : Int) (C : List R) :
    (mmColBlkRowP V K a blkr j i).exec1 C = mmColBlkRow V K a blkr j i C := by
  unfold mmColBlkRowP mmColBlkRow
  rw [ThP.exec1_lift]
  refine congrArg _ (funext fun lo => ?_)
  rw [ThP.exec1_lift]
  refine congrArg _ (funext fun hi => ?_)
  rw [ThP.exec1_lift]
  refine congrArg _ (funext fun d0 => ?_)
  rw [ThP.exec1_lift]
  refine congrArg _ (funext fun d1 => ?_)
  rw [ThP.exec1_lift]
  refine congrArg _ (funext fun d2 => ?_)
  rw [ThP.exec1_lift]
  refine congrArg _ (funext fun d3 => ?_)
  rw [ThP.exec1_seq, mmPutP_exec]
  refine congrArg _ (funext fun C => ?_)
  rw [ThP.exec1_seq, mmPutP_exec]
  refine congrArg _ (funext fun C => ?_)
  rw [ThP.exec1_seq, mmPutP_exec]
  exact congrArg _ (funext fun C => mmPutP_exec ..)

theorem mmColBlkP_exec (V : Vec R) (K : Nat) (a : MmIn R) (j : Int) (s : Int × List R) :
    (mmColBlkP V K a j s.1).exec s.2 = mmColBlk V K a j s := by
  unfold mmColBlkP mmColBlk
  rw [ThP.exec_bind, ThP.exec_unit, ThP.exec1_forP]
  have e : (fun i C => (mmColBlkRowP V K a (mmBlkCols a.n j s.1) j i).exec1 C)
      = mmColBlkRow V K a (mmBlkCols a.n j s.1) j := funext fun i => funext fun C => mmColBlkRowP_exec ..
  rw [e]
  show _ = (forC 0 a.m (mmColBlkRow V K a (mmBlkCols a.n j s.1) j) s.2).bind _
  cases forC 0 a.m (mmColBlkRow V K a (mmBlkCols a.n j s.1) j) s.2 <;> rfl

theorem mmColKtThreadP_exec (w T : Nat) (V : Vec R) (K : Nat) (a : MmIn R) (t : Nat) (C : List R) :
    (mmColKtThreadP w T V K a t).exec1 C = (do
      let s ← chk w (a.n * t)
      let e ← chk w (a.n * (t + 1))
      let r ← forS (roundUp4 a.n (s.tdiv T)) (roundUp4 a.n (e.tdiv T)) 4 (mmColBlk V K a) (4, C)
      some r.2) := by
  unfold mmColKtThreadP
  rw [ThP.exec1_lift]
  refine congrArg _ (funext fun s => ?_)
  rw [ThP.exec1_lift]
  refine congrArg _ (funext fun e => ?_)
  rw [ThP.exec1_bind]
  unfold ThP.forSP forS
  rw [ThP.exec_forP]
  have e : (fun (i : Int) (s_1 : Int × List R) => (mmColBlkP V K a (roundUp4 a.n (s.tdiv T) + 4 * i) s_1.1).exec s_1.2)
      = fun t s_1 => mmColBlk V K a (roundUp4 a.n (s.tdiv T) + 4 * t) s_1 :=
    funext fun i => funext fun s => mmColBlkP_exec ..
  rw [e]
  rfl

variable [DecidableEq R]

theorem scaleLineP_exec (col : Bool) (m n ld : Int) (beta : R) (C : List R) :
    forC 0 (if col then n else m) (fun k C => (scaleLineP col m n ld beta k).exec1 C) C
      = scaleDense col m n ld beta C := by
  have hcell : ∀ (i j : Int) (C : List R), (scaleCellP col ld beta i j).exec1 C
      = if beta = 0 then wr C (mmIx col ld i j) 0
        else (rd C (mmIx col ld i j)).bind fun c => wr C (mmIx col ld i j) (beta * c) := by
    intro i j C
    unfold scaleCellP
    by_cases h : beta = 0
    · rw [if_pos h, if_pos h, ThP.exec1_write]
      cases wr C (mmIx col ld i j) 0 <;> rfl
    · rw [if_neg h, if_neg h]; exact updP_exec _ _ _
  unfold scaleDense scaleLineP
  cases col
  · simp only [Bool.false_eq_true, if_false]
    refine congrArg (fun f => forC 0 m f C) (funext fun i => funext fun C => ?_)
    rw [ThP.exec1_forP]
    exact congrArg (fun f => forC 0 n f C) (funext fun j => funext fun C => hcell i j C)
  · simp only [if_true]
    refine congrArg (fun f => forC 0 n f C) (funext fun j => funext fun C => ?_)
    rw [ThP.exec1_forP]
    exact congrArg (fun f => forC 0 m f C) (funext fun i => funext fun C => hcell i j C)

end execs

end Verif
