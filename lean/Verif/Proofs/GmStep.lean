/-
One call of the GMRES solver: the result of each task.
-/
import Verif.Proofs.GmLoop
import Verif.Spec.Gmres

namespace Verif
namespace Proofs
open Model Spec

section
variable {R F : Type}

variable [Zero R] [Neg R] [Add R] [Sub R] [Mul R] [Div R] (num : GNum R F)

/-- the state after the rotation of the new column -/
def turned (j : Nat) (m : Nat) (hh : F) (v2 h2 : List R) (S : GmSt R F) : GmSt R F :=
  let rot := num.lartg (h2.getD (j * m + j) 0) (num.toR (num.negF hh))
  let g0 := S.gm.g.getD j 0
  { S with
    gm := { S.gm with
      v := v2
      h := h2.set (j * m + j) rot.2.2
      c := S.gm.c.set j rot.1
      s := S.gm.s.set j rot.2.1
      g := (S.gm.g.set j (num.smul rot.1 g0)).set (j + 1) (rot.2.1 * g0)
      rnorm2 := num.abs (num.smul rot.1 g0)
      j := ((j + 1 : Nat) : Int) }
    rinfo := (S.rinfo.set 30 (num.ofInt S.gm.niter)).set 0 (num.abs (num.smul rot.1 g0)) }

/-- what happens after the rotation -/
def afterTurn (n m : Nat) (S : GmSt R F) : Option (Status × GmSt R F) :=
  if S.gm.j ≥ m then gmXUpdate num n { S with gm := { S.gm with task := .xUpdate } }
  else if S.gm.precond = 0 then some (gmInitPrecond n { S with gm := { S.gm with task := .endIter } })
  else
    some (.success, { S with
      gm := { S.gm with task := .endIter }
      c := ⟨.precond, .gv (S.gm.j * n), .gz (S.gm.j * n)⟩ })

variable {num}

theorem wr_at {α : Type} {a : List α} {i : Int} {p : Nat} (v : α) (hi : i = p) (h : p < a.length) :
    wr a i v = some (a.set p v) := by
  subst hi; exact wr_ofNat h

theorem wr_0 {α : Type} {a : List α} (v : α) (h : 0 < a.length) : wr a 0 v = some (a.set 0 v) := wr_at v rfl h
theorem wr_1 {α : Type} {a : List α} (v : α) (h : 1 < a.length) : wr a 1 v = some (a.set 1 v) := wr_at v rfl h
theorem wr_30 {α : Type} {a : List α} (v : α) (h : 30 < a.length) : wr a 30 v = some (a.set 30 v) := wr_at v rfl h

theorem turned_sz {n m j : Nat} {hh : F} {v2 h2 : List R} {S : GmSt R F} (hz : GmSz n m j S.gm)
    (hv : v2.length = (m + 1) * n) (hh2 : h2.length = m * m) : GmSz n m (j + 1) (turned num j m hh v2 h2 S).gm :=
  ⟨hv, hz.z, by simp [turned, hh2], by simp [turned, hz.g], by simp [turned, hz.s], by simp [turned, hz.c],
    hz.restart, rfl⟩

/-- task_gmres_start_iter -/
theorem startIter_shape {n m j : Nat} {S : GmSt R F} (hz : GmSz n m j S.gm) (hj : j < m)
    (hinfo : S.rinfo.length = 100) :
    ∃ h1 v1, forC 0 ((j : Int) + 1) (hessBody num n m j S.gm.v) S.gm.h = some h1 ∧
      forC 0 (n : Int) (orthBody num n m j h1) S.gm.v = some v1 ∧
      h1.length = m * m ∧ v1.length = (m + 1) * n ∧
      ((∃ hh, num.nrm ((v1.drop ((j + 1) * n)).take n) = hh ∧ (num.lt hh S.gm.atol || num.lt hh S.gm.brtol) = true ∧
        gmStartIter num n S = some (.success, { S with
          gm := { S.gm with h := h1, v := v1, niter := S.gm.niter + (j + 1) }
          rinfo := (S.rinfo.set 30 (num.ofInt (S.gm.niter + (j + 1)))).set 0 hh
          c := { S.c with job := .stop } })) ∨
      (∃ hh v2 h2, num.nrm ((v1.drop ((j + 1) * n)).take n) = hh ∧
        (num.lt hh S.gm.atol || num.lt hh S.gm.brtol) = false ∧
        forC 0 (n : Int) (scalBody num (num.invF hh) ((j + 1) * n : Nat)) v1 = some v2 ∧
        forC 0 (j : Int) (rotBody num m j S.gm.c S.gm.s) h1 = some h2 ∧
        v2.length = (m + 1) * n ∧ h2.length = m * m ∧
        gmStartIter num n S = afterTurn num n m (turned num j m hh v2 h2 S))) := by
  obtain ⟨h1, e1, l1, -⟩ := hess_loop (num := num) hz.v hz.h hj
  rw [hz.h] at l1
  obtain ⟨v1, e2, l2, -⟩ := orth_loop (num := num) hz.v l1 hj
  rw [hz.v] at l2
  refine ⟨h1, v1, e1, e2, l1, l2, ?_⟩
  have hrow := row_le (n := n) (m := m) (i := j + 1) (by omega)
  have en : ((j : Int) + 1) * (n : Int) = (((j + 1) * n : Nat) : Int) := by push_cast; ring
  unfold gmStartIter
  simp only [Option.bind_eq_bind]
  rw [hz.restart, hz.j, e1, Option.bind_some, e2, Option.bind_some, en,
    gnrm_at (by rw [l2]; exact hrow), Option.bind_some]
  generalize num.nrm ((v1.drop ((j + 1) * n)).take n) = hh
  by_cases hd : (num.lt hh S.gm.atol || num.lt hh S.gm.brtol) = true
  · left
    refine ⟨hh, rfl, hd, ?_⟩
    rw [if_pos hd, wr_30 _ (by omega), Option.bind_some, wr_0 _ (by simp; omega),
      Option.bind_some]
  · right
    obtain ⟨v2, e3, l3, -⟩ := scal_loop (num := num) (n := n) (off := (j + 1) * n) (v := v1) (num.invF hh)
      (by rw [l2]; exact hrow)
    rw [l2] at l3
    obtain ⟨h2, e4, l4, -⟩ := rot_loop (num := num) (h := h1) (s := S.gm.s) (c := S.gm.c) l1 hz.s hz.c hj
    rw [l1] at l4
    refine ⟨hh, v2, h2, rfl, by simpa using hd, e3, e4, l3, l4, ?_⟩
    rw [if_neg hd, e3, Option.bind_some]
    unfold gmRotate
    simp only [Option.bind_eq_bind]
    have ej : (j : Int) * (m : Int) + (j : Int) = ((j * m + j : Nat) : Int) := by push_cast; ring
    have lj : j * m + j < h2.length := by rw [l4]; exact sq_lt hj hj
    rw [e4, Option.bind_some, ej, rd_at lj, Option.bind_some,
      wr_at _ rfl (by rw [hz.c]; exact hj), Option.bind_some, wr_at _ rfl (by rw [hz.s]; exact hj), Option.bind_some,
      wr_at _ rfl lj, Option.bind_some, rd_at (by rw [hz.g]; omega), Option.bind_some,
      wr_at _ rfl (by rw [hz.g]; omega), Option.bind_some,
      wr_at _ (p := j + 1) (by push_cast; rfl) (by simp [hz.g]; omega), Option.bind_some,
      rd_at (by simp [hz.g]; omega), Option.bind_some, wr_30 _ (by omega), Option.bind_some,
      wr_0 _ (by simp; omega), Option.bind_some, at_set_ne _ (by omega),
      at_set_eq _ (by rw [hz.g]; omega)]
    unfold afterTurn turned
    dsimp only
    rw [hz.restart]
    rfl

/-- the state after a cycle -/
def cycled (m : Nat) (y x : List R) (r0 : F) (S : GmSt R F) : GmSt R F :=
  { S with
    gm := { S.gm with s := y, rnorm2 := r0, niter := S.gm.niter + m, j := 0 }
    x := x
    rinfo := (S.rinfo.set 30 (num.ofInt (S.gm.niter + m))).set 0 r0
    c := { S.c with job := .crit } }

/-- the three tests at the end of a cycle -/
def gmDone (num : GNum R F) (gm : GmData R F) : Bool := belowAbs num gm || belowRel num gm || maxReached gm

/-- task_gmres_x_update -/
theorem xUpdate_shape {n m : Nat} {S : GmSt R F} (hz : GmSz n m m S.gm) (hinfo : S.rinfo.length = 100)
    (hx : n ≤ S.x.length) :
    ∃ bs, backSolve num m m S.gm.h S.gm.g m S.gm.s = some bs ∧ bs.2.length = m ∧
      ((bs.1 = .numericalError ∧
        gmXUpdate num n S = some (.numericalError, { S with gm := { S.gm with s := bs.2 } })) ∨
      (∃ x', bs.1 = .success ∧
        forC 0 (n : Int) (xUpdBody num m n (if S.gm.precond = 0 then S.gm.v else S.gm.z) bs.2) S.x = some x' ∧
        x'.length = S.x.length ∧ (∀ p, n ≤ p → x'[p]? = S.x[p]?) ∧
        ∃ S', S' = cycled (num := num) m bs.2 x' (num.abs (S.gm.g.getD m 0)) S ∧
        gmXUpdate num n S = some (.success, if gmDone num S'.gm then
            { S' with gm := { S'.gm with task := .convergenceCheck } }
          else { S' with gm := { S'.gm with task := .restartCycle } }))) := by
  obtain ⟨bs, e1, l1, hst⟩ := back_total (num := num) hz.h (show m ≤ S.gm.g.length by rw [hz.g]; omega) m (le_refl _)
    S.gm.s hz.s
  refine ⟨bs, e1, l1, ?_⟩
  unfold gmXUpdate
  simp only [Option.bind_eq_bind]
  rw [hz.restart, hz.j, Int.toNat_natCast, e1, Option.bind_some]
  rcases hst with hs | hs
  · right
    obtain ⟨x', e2, l2, -, f2⟩ := xUpd_loop (num := num) (n := n) (m := m)
      (a := if S.gm.precond = 0 then S.gm.v else S.gm.z) (by split; exact hz.v; exact hz.z) l1 hx
    refine ⟨x', hs, e2, l2, f2, _, rfl, ?_⟩
    rw [if_neg (by rw [hs]; simp), e2, Option.bind_some, rd_at (by rw [hz.g]; omega), Option.bind_some,
      wr_30 _ (by omega), Option.bind_some, wr_0 _ (by simp; omega), Option.bind_some,
      if_pos (show (m : Int) ≥ m from le_refl _)]
    unfold gmDone cycled
    dsimp only
    rw [hz.restart]
    split
    · rename_i h
      exact congrArg (fun z => some (Status.success, z)) (if_pos h).symm
    · rename_i h
      exact congrArg (fun z => some (Status.success, z)) (if_neg h).symm
  · left
    exact ⟨hs, by rw [if_pos (by rw [hs]; simp), hs]⟩

/-- the state after the initial residual -/
def scaled (v : List R) (bn g0 : F) (S : GmSt R F) : GmSt R F :=
  { S with
    gm := { S.gm with
      bnorm2 := bn, brtol := num.mulF S.gm.rtol bn, v := v, g := S.gm.g.set 0 (num.toR g0), rnorm2 := g0 }
    rinfo := ((S.rinfo.set 1 bn).set 1 (num.mulF S.gm.rtol bn)).set 0 g0 }

/-- task_gmres_init_res -/
theorem initRes_shape {n m j : Nat} {b : List R} {S : GmSt R F} (hb : b.length = n) (hz : GmSz n m j S.gm)
    (hinfo : S.rinfo.length = 100) :
    ∃ bn, num.nrm (b.take n) = bn ∧
    ((num.isNan bn = true ∧ gmInitRes num n b S = some (.invalidValue, { S with gm := { S.gm with bnorm2 := bn } })) ∨
     (num.isNan bn = false ∧ (num.nearF S.gm.atol && num.nearF (num.mulF S.gm.rtol bn)) = true ∧
      gmInitRes num n b S = some (.invalidValue, { S with
        gm := { S.gm with bnorm2 := bn, brtol := num.mulF S.gm.rtol bn }
        rinfo := (S.rinfo.set 1 bn).set 1 (num.mulF S.gm.rtol bn)
        c := { S.c with job := .stop } })) ∨
     (num.isNan bn = false ∧ (num.nearF S.gm.atol && num.nearF (num.mulF S.gm.rtol bn)) = false ∧
      ∃ v1 g0, forC 0 (n : Int) (axpbyBody b) S.gm.v = some v1 ∧ num.nrm (v1.take n) = g0 ∧
      v1.length = (m + 1) * n ∧
      ((gmInitDone num (scaled (num := num) v1 bn g0 S).gm = true ∧
        gmInitRes num n b S = some (.success, { scaled (num := num) v1 bn g0 S with
          rinfo := (scaled (num := num) v1 bn g0 S).rinfo.set 30 (num.ofInt S.gm.niter)
          c := { S.c with job := .stop } })) ∨
       (gmInitDone num (scaled (num := num) v1 bn g0 S).gm = false ∧
        ∃ v2, forC 0 (n : Int) (scalBody num (num.invF g0) (0 : Nat)) v1 = some v2 ∧ v2.length = (m + 1) * n ∧
        gmInitRes num n b S = some (gmAfterInit n (scaled (num := num) v2 bn g0 S)))))) := by
  have hrow := row_le (n := n) (m := m) (i := 0) (by omega)
  have hbn := gnrm_at (num := num) (n := n) (off := 0) (a := b) (by omega)
  refine ⟨num.nrm (b.take n), rfl, ?_⟩
  unfold gmInitRes
  simp only [Option.bind_eq_bind]
  rw [Nat.cast_zero, List.drop_zero] at hbn
  rw [hbn, Option.bind_some]
  generalize num.nrm (b.take n) = bn
  by_cases h1 : num.isNan bn = true
  · left
    rw [if_pos h1]
    exact ⟨h1, rfl⟩
  right
  rw [if_neg h1, wr_1 _ (by omega), Option.bind_some, wr_1 _ (by simp; omega),
    Option.bind_some]
  by_cases h2 : (num.nearF S.gm.atol && num.nearF (num.mulF S.gm.rtol bn)) = true
  · left
    rw [if_pos h2]
    exact ⟨by simpa using h1, h2, rfl⟩
  right
  refine ⟨by simpa using h1, by simpa using h2, ?_⟩
  obtain ⟨v1, e1, l1, -⟩ := axpby_loop (n := n) (b := b) (v := S.gm.v) hb (by rw [hz.v]; omega)
  rw [hz.v] at l1
  refine ⟨v1, num.nrm (v1.take n), e1, rfl, l1, ?_⟩
  have hg0 := gnrm_at (num := num) (n := n) (off := 0) (a := v1) (by omega)
  rw [Nat.cast_zero, List.drop_zero] at hg0
  rw [if_neg h2, e1, Option.bind_some, hg0, Option.bind_some]
  generalize num.nrm (v1.take n) = g0
  rw [wr_0 _ (by rw [hz.g]; omega), Option.bind_some, wr_0 _ (by simp; omega),
    Option.bind_some]
  by_cases h3 : gmInitDone num (scaled (num := num) v1 bn g0 S).gm = true
  · left
    refine ⟨h3, ?_⟩
    refine (if_pos h3).trans ?_
    rw [wr_30 _ (by simp; omega), Option.bind_some]
    rfl
  · right
    obtain ⟨v2, e3, l3, -⟩ := scal_loop (num := num) (n := n) (off := 0) (v := v1) (num.invF g0) (by omega)
    rw [l1] at l3
    refine ⟨by simpa using h3, v2, e3, l3, ?_⟩
    refine (if_neg h3).trans ?_
    rw [Nat.cast_zero] at e3
    rw [e3, Option.bind_some]
    rfl

end
end Proofs
end Verif
