/-
The CG solver of the model against the dialogue of Spec/Cg.
-/
import Verif.Spec.Cg
import Verif.Model.Itsol

namespace Verif
namespace Proofs
open Model Spec

/-! ### loops over vectors -/

section
variable {α : Type} {n : Nat}

theorem rd_ofFn (f : Fin n → α) (t : List α) (i : Fin n) : rd (List.ofFn f ++ t) (i : Nat) = some (f i) := by
  rw [rd_ofNat, List.getElem?_append_left (by simp)]
  simp

theorem rd_ofFn' (f : Fin n → α) (i : Fin n) : rd (List.ofFn f) (i : Nat) = some (f i) := by
  rw [rd_ofNat]
  simp

theorem wr_ofFn (f : Fin n → α) (t : List α) (i : Fin n) (v : α) :
    wr (List.ofFn f ++ t) (i : Nat) v = some (List.ofFn (Function.update f i v) ++ t) := by
  rw [wr_ofNat (by simp; omega), List.set_append_left _ _ (by simp)]
  congr 2
  apply List.ext_getElem (by simp)
  intro k h1 h2
  rw [List.getElem_set]
  simp only [List.getElem_ofFn, Function.update_apply, Fin.ext_iff]
  by_cases h : (i : Nat) = k
  · rw [if_pos h, if_pos h.symm]
  · rw [if_neg h, if_neg (fun e => h e.symm)]

theorem wr_ofFn' (f : Fin n → α) (i : Fin n) (v : α) :
    wr (List.ofFn f) (i : Nat) v = some (List.ofFn (Function.update f i v)) := by
  have := wr_ofFn f [] i v
  simpa using this

/-- a loop whose pass `i` changes entry `i` -/
theorem forC_ofFn (f g : Fin n → α) (t : List α) (body : Int → List α → Option (List α))
    (hb : ∀ (i : Fin n) (h : Fin n → α), h i = f i →
      body (i : Nat) (List.ofFn h ++ t) = some (List.ofFn (Function.update h i (g i)) ++ t)) :
    forC 0 n body (List.ofFn f ++ t) = some (List.ofFn g ++ t) := by
  obtain ⟨s, hs, hp⟩ := forC_inv (lo := 0) (hi := (n : Int)) (f := body) (s := List.ofFn f ++ t)
    (P := fun i s => s = List.ofFn (fun j : Fin n => if (j : Int) < i then g j else f j) ++ t) (by omega)
    (by show _ = _; congr 2)
    (by
      intro i s h0 hn hs
      obtain ⟨k, rfl⟩ : ∃ k : Nat, i = k := ⟨i.toNat, by omega⟩
      refine ⟨_, ?_, rfl⟩
      rw [hs, hb ⟨k, by omega⟩ _ (by simp)]
      congr 3
      funext j
      rw [Function.update_apply]
      by_cases hj : j = ⟨k, by omega⟩
      · subst hj
        simp
      · have : (j : Nat) ≠ k := fun e => hj (Fin.ext e)
        rw [if_neg hj]
        have : ((j : Int) < (k : Int) + 1) ↔ ((j : Int) < (k : Int)) := by omega
        simp only [this])
  rw [hs, hp]
  congr 3
  funext j
  rw [if_pos (by omega)]

theorem forC_ofFn' (f g : Fin n → α) (body : Int → List α → Option (List α))
    (hb : ∀ (i : Fin n) (h : Fin n → α), h i = f i →
      body (i : Nat) (List.ofFn h) = some (List.ofFn (Function.update h i (g i)))) :
    forC 0 n body (List.ofFn f) = some (List.ofFn g) := by
  have := forC_ofFn f g [] body (by simpa using hb)
  simpa using this

/-- two arrays at a time -/
theorem forC_ofFn2 {β : Type} (f g : Fin n → α) (t : List α) (f' g' : Fin n → β) (t' : List β)
    (body : Int → List α × List β → Option (List α × List β))
    (hb : ∀ (i : Fin n) (h : Fin n → α) (h' : Fin n → β), h i = f i → h' i = f' i →
      body (i : Nat) (List.ofFn h ++ t, List.ofFn h' ++ t') =
        some (List.ofFn (Function.update h i (g i)) ++ t, List.ofFn (Function.update h' i (g' i)) ++ t')) :
    forC 0 n body (List.ofFn f ++ t, List.ofFn f' ++ t') = some (List.ofFn g ++ t, List.ofFn g' ++ t') := by
  obtain ⟨s, hs, hp⟩ := forC_inv (lo := 0) (hi := (n : Int)) (f := body) (s := (List.ofFn f ++ t, List.ofFn f' ++ t'))
    (P := fun i s => s = (List.ofFn (fun j : Fin n => if (j : Int) < i then g j else f j) ++ t,
      List.ofFn (fun j : Fin n => if (j : Int) < i then g' j else f' j) ++ t')) (by omega)
    (by show _ = _; congr 3 <;> (funext j; rw [if_neg (by omega)]))
    (by
      intro i s h0 hn hs
      obtain ⟨k, rfl⟩ : ∃ k : Nat, i = k := ⟨i.toNat, by omega⟩
      refine ⟨_, ?_, rfl⟩
      rw [hs, hb ⟨k, by omega⟩ _ _ (by simp) (by simp)]
      have key : ∀ {γ : Type} (u v : Fin n → γ),
          Function.update (fun j : Fin n => if (j : Int) < (k : Int) then v j else u j) ⟨k, by omega⟩ (v ⟨k, by omega⟩) =
          fun j : Fin n => if (j : Int) < (k : Int) + 1 then v j else u j := by
        intro γ u v
        funext j
        rw [Function.update_apply]
        by_cases hj : j = ⟨k, by omega⟩
        · subst hj
          simp
        · have : (j : Nat) ≠ k := fun e => hj (Fin.ext e)
          rw [if_neg hj]
          have : ((j : Int) < (k : Int) + 1) ↔ ((j : Int) < (k : Int)) := by omega
          simp only [this]
      rw [key, key])
  rw [hs, hp]
  congr 4 <;> (funext j; rw [if_pos (by omega)])

end

section
variable {R Q : Type} [Zero R] [Neg R] [Add R] [Sub R] [Mul R] [Div R] [LinearOrder Q] {n : Nat}

theorem dot_loop (a b : Fin n → R) : forC 0 n (dotBody (List.ofFn a) (List.ofFn b)) 0 = some (dot a b) := by
  obtain ⟨s, hs, hp⟩ := forC_inv (lo := 0) (hi := (n : Int)) (f := dotBody (List.ofFn a) (List.ofFn b)) (s := 0)
    (P := fun i s => s = ((List.finRange n).take i.toNat).foldl (fun s i => s + a i * b i) 0) (by omega)
    (by simp)
    (by
      intro i s h0 hn hs
      obtain ⟨k, rfl⟩ : ∃ k : Nat, i = k := ⟨i.toNat, by omega⟩
      refine ⟨_, ?_, rfl⟩
      have hk : k < n := by omega
      have e1 := rd_ofFn' a ⟨k, hk⟩
      have e2 := rd_ofFn' b ⟨k, hk⟩
      simp only at e1 e2
      unfold dotBody
      rw [e1, e2]
      simp only [Option.bind_eq_bind, Option.bind_some, Option.some.injEq]
      rw [show ((k : Int) + 1).toNat = k + 1 by omega, List.take_add_one, List.foldl_append, hs]
      simp [hk])
  rw [hs, hp]
  unfold dot
  rw [show ((n : Int)).toNat = n by omega, List.take_of_length_le (by simp)]

variable (num : Num R Q)

theorem nrmN_ofFn (a : Fin n → R) : nrmN num (n : Int) (List.ofFn a) = some (num.nrm (List.ofFn a)) := by
  unfold nrmN
  rw [if_pos (by simp), List.take_of_length_le (by simp)]

theorem fill_eq {N : Nat} {a : List Q} (h : a.length = N) (v : Q) :
    forC 0 N (fun i a => wr a i v) a = some (List.replicate N v) := by
  obtain ⟨f, rfl⟩ : ∃ f : Fin N → Q, a = List.ofFn f := by
    refine ⟨fun i => a[i]'(by omega), ?_⟩
    apply List.ext_getElem (by simp [h])
    intro k h1 h2
    simp
  rw [forC_ofFn' f (fun _ => v) (fun i a => wr a i v) (fun i h _ => wr_ofFn' h i _), List.ofFn_const]

theorem clearInfo_eq {rinfo : List Q} (h : rinfo.length = 100) :
    clearInfo num rinfo = some (List.replicate 100 num.zeroQ) := fill_eq h num.zeroQ

/-- a state of the solver holds the variables of the dialogue -/
structure Holds (o : CgOpt Q) (b : Fin n → R) (t : List R) (a : CgAsk) (V : CgV n R Q) (S : CgSt R Q) : Prop where
  x : S.x = List.ofFn V.x ++ t
  info : S.rinfo.length = 100
  i0 : S.rinfo[0]? = some V.rnorm
  i1 : S.rinfo[1]? = some V.bnorm
  i30 : S.rinfo[30]? = some (if V.k = 0 then num.zeroQ else num.ofInt V.k)
  rtol : S.cg.rtol = o.rtol
  atol : S.cg.atol = o.atol
  maxit : S.cg.maxit = o.maxit
  pre : S.cg.precond = 0 ↔ o.pre = false
  brtol : S.cg.brtol = num.mulQ o.rtol V.bnorm
  niter : S.cg.niter = V.k
  zlen : S.cg.z.length = n
  qlen : S.cg.q.length = n
  task : S.cg.task = match a with
    | .product0 => .initRes | .monitor => .startIter | .precond => .computeBeta | .product => .takeStep
  comm : S.c = match a with
    | .product0 => ⟨.mv, .p, .q⟩ | .monitor => ⟨.crit, .r, .null⟩ | .precond => ⟨.precond, .r, .z⟩
    | .product => ⟨.mv, .p, .q⟩
  r : S.cg.r = match a with
    | .product0 => List.ofFn fun i => -b i
    | _ => List.ofFn V.r
  p : S.cg.p = match a with
    | .product0 => List.ofFn V.x
    | _ => List.ofFn V.p
  rz : a ≠ .product0 → S.cg.rz = V.rz
  k0 : a = .product0 → V.k = 0

/-- the end of a solve -/
structure Ended (t : List R) (V : CgV n R Q) (S : CgSt R Q) : Prop where
  x : S.x = List.ofFn V.x ++ t
  info : S.rinfo.length = 100
  i0 : S.rinfo[0]? = some V.rnorm
  i1 : S.rinfo[1]? = some V.bnorm
  i30 : S.rinfo[30]? = some (if V.k = 0 then num.zeroQ else num.ofInt V.k)
  rlen : S.cg.r.length = n
  zlen : S.cg.z.length = n
  plen : S.cg.p.length = n
  qlen : S.cg.q.length = n

/-- the result of a call matches the dialogue -/
def Matches (o : CgOpt Q) (b : Fin n → R) (t : List R) (O : CgOut n R Q) (r : Status × CgSt R Q) : Prop :=
  match O with
  | .ask a V => r.1 = .success ∧ Holds num o b t a V r.2
  | .done st V => r.1 = st ∧ (r.1 ≠ .success ∨ r.2.c.job = .stop) ∧ Ended num t V r.2

variable {num} {o : CgOpt Q} {b : Fin n → R} {t : List R}

theorem checkConv_matches {V : CgV n R Q} {S : CgSt R Q} (h : Holds num o b t .monitor V S)
    (hrn : S.cg.rnorm2 = V.rnorm) (c : Comm) (tk : CgTask) :
    Matches num o b t (cgTest num o V) (cgCheckConv num { S with c := c, cg := { S.cg with task := tk } }) := by
  unfold cgCheckConv cgTest
  simp only [hrn, h.atol, h.rtol, h.brtol, h.maxit, h.niter]
  have hend : ∀ (c : Comm) (cg : CgData R Q), cg.r = S.cg.r → cg.z = S.cg.z → cg.p = S.cg.p → cg.q = S.cg.q →
      Ended num t V { S with c := c, cg := cg } := fun c cg h1 h2 h3 h4 =>
    ⟨h.x, h.info, h.i0, h.i1, h.i30, by simp [h1, h.r], by simp [h2, h.zlen], by simp [h3, h.p], by simp [h4, h.qlen]⟩
  by_cases h1 : num.zeroQ < o.atol ∧ V.rnorm ≤ o.atol
  · rw [if_pos h1, if_pos (show converged num o V from Or.inl h1)]
    exact ⟨rfl, Or.inr rfl, hend _ _ rfl rfl rfl rfl⟩
  rw [if_neg h1]
  by_cases h2 : num.zeroQ < o.rtol ∧ V.rnorm ≤ num.mulQ o.rtol V.bnorm
  · rw [if_pos h2, if_pos (show converged num o V from Or.inr h2)]
    exact ⟨rfl, Or.inr rfl, hend _ _ rfl rfl rfl rfl⟩
  rw [if_neg h2, if_neg (show ¬ converged num o V from not_or.2 ⟨h1, h2⟩)]
  by_cases h3 : 0 < o.maxit ∧ o.maxit < V.k
  · rw [if_pos h3, if_pos h3]
    exact ⟨rfl, Or.inl (by simp), hend _ _ rfl rfl rfl rfl⟩
  rw [if_neg h3, if_neg h3]
  exact ⟨rfl, ⟨h.x, h.info, h.i0, h.i1, h.i30, rfl, rfl, rfl, h.pre, rfl, rfl, h.zlen, h.qlen, rfl,
    rfl, h.r, h.p, h.rz, fun e => by cases e⟩⟩

/-- an updated residual -/
theorem residual_matches {V : CgV n R Q} {S : CgSt R Q} (h : Holds num o b t .monitor V S) (c : Comm) (tk : CgTask) :
    ∃ r, (match num.nrm (List.ofFn V.r) with
      | none => some (Status.numericalError, S)
      | some rn => (wr S.rinfo 0 rn).map fun rinfo =>
        cgCheckConv num { S with cg := { S.cg with rnorm2 := rn, task := tk }, c := c, rinfo := rinfo }) = some r ∧
      Matches num o b t (cgResidual num o V) r := by
  unfold cgResidual
  cases hn : num.nrm (List.ofFn V.r) with
  | none =>
    exact ⟨_, rfl, rfl, Or.inl (by simp), h.x, h.info, h.i0, h.i1, h.i30, by simp [h.r], h.zlen, by simp [h.p], h.qlen⟩
  | some rn =>
    dsimp only
    have hw : wr S.rinfo 0 rn = some (S.rinfo.set 0 rn) := wr_ofNat (i := 0) (by rw [h.info]; omega)
    rw [hw]
    refine ⟨_, rfl, ?_⟩
    have h' : Holds num o b t .monitor { V with rnorm := rn }
        { S with cg := { S.cg with rnorm2 := rn }, rinfo := S.rinfo.set 0 rn } :=
      ⟨h.x, by simp [h.info], by simp [h.info], by simp [h.i1], by simp [h.i30], h.rtol, h.atol, h.maxit, h.pre,
        h.brtol, h.niter, h.zlen, h.qlen, h.task, h.comm, h.r, h.p, h.rz, fun e => by cases e⟩
    exact checkConv_matches h' rfl c tk

theorem initRes_matches {V : CgV n R Q} {S : CgSt R Q} (h : Holds num o b t .product0 V S) (w : Fin n → R) (job : Job)
    (hj : job ≠ .interrupt) :
    ∃ r, cgRci num n (List.ofFn b) { S with cg := { S.cg with q := List.ofFn w }, c := { S.c with job := job } } = some r ∧
      Matches num o b t (cgAnswer num o b .product0 V w) r := by
  unfold cgRci
  rw [if_neg (by simp [hj]), h.task]
  dsimp only
  unfold cgInitRes
  have e1 : forC 0 n (resBody (List.ofFn w)) S.cg.r = some (List.ofFn fun i => -b i + w i) := by
    rw [h.r]
    refine forC_ofFn' _ _ _ fun i g hg => ?_
    unfold resBody
    rw [rd_ofFn', rd_ofFn']
    simp only [Option.bind_eq_bind, Option.bind_some]
    rw [wr_ofFn', hg]
  have e2 : forC 0 n (fun i p => wr p i 0) S.cg.p = some (List.ofFn fun _ : Fin n => (0 : R)) := by
    rw [h.p]
    exact forC_ofFn' _ _ _ fun i g hg => wr_ofFn' g i 0
  simp only [Option.bind_eq_bind, e1, Option.bind_some, nrmN_ofFn, e2]
  have hm : Holds num o b t .monitor { V with r := fun i => -b i + w i, p := fun _ => 0, rz := num.rz0 }
      { S with cg := { S.cg with r := List.ofFn fun i => -b i + w i, p := List.ofFn fun _ => 0, rz := num.rz0,
                                 q := List.ofFn w, task := .startIter }, c := ⟨.crit, .r, .null⟩ } :=
    ⟨h.x, h.info, h.i0, h.i1, h.i30, h.rtol, h.atol, h.maxit, h.pre, h.brtol, h.niter, h.zlen, by simp, rfl, rfl, rfl,
      rfl, fun _ => rfl, fun e => by cases e⟩
  obtain ⟨r, hr, hM⟩ := residual_matches hm { S.c with job := job } .checkConv
  unfold cgAnswer
  cases hn : num.nrm (List.ofFn fun i => -b i + w i) with
  | none =>
    refine ⟨_, rfl, ?_⟩
    unfold cgResidual
    simp only [hn]
    exact ⟨rfl, Or.inl (by simp), h.x, h.info, h.i0, h.i1, h.i30, by simp, h.zlen, by simp [h.p], by simp⟩
  | some rn =>
    simp only [hn] at hr
    have hw : wr S.rinfo 0 rn = some (S.rinfo.set 0 rn) := wr_ofNat (i := 0) (by rw [h.info]; omega)
    rw [hw] at hr
    dsimp only
    rw [hw]
    exact ⟨r, hr, hM⟩

/-- the direction, after the preconditioned residual is known -/
theorem direction_matches {V : CgV n R Q} {S : CgSt R Q} (h : Holds num o b t .monitor V S)
    (hz : S.cg.z = List.ofFn V.z) (c : Comm) (tk : CgTask) :
    ∃ r, cgComputeBeta num n { S with cg := { S.cg with task := tk }, c := c } = some r ∧
      Matches num o b t (cgDirection num V) r := by
  unfold cgComputeBeta cgDirection
  have e1 : forC 0 n (dotBody S.cg.r S.cg.z) 0 = some (dot V.r V.z) := by
    rw [h.r, hz]; exact dot_loop V.r V.z
  have e2 : ∀ beta : R, forC 0 n (dirBody beta S.cg.z) S.cg.p = some (List.ofFn fun i => beta * V.p i - V.z i) := by
    intro beta
    rw [h.p, hz]
    refine forC_ofFn' _ _ _ fun i g hg => ?_
    unfold dirBody
    rw [rd_ofFn', rd_ofFn']
    simp only [Option.bind_eq_bind, Option.bind_some]
    rw [wr_ofFn', hg]
  simp only [Option.bind_eq_bind, e1, Option.bind_some, h.rz (by simp), e2]
  by_cases hb : num.isBad V.rz = true
  · rw [if_pos hb, if_pos hb]
    exact ⟨_, rfl, rfl, Or.inl (by simp), h.x, h.info, h.i0, h.i1, h.i30, by simp [h.r], h.zlen, by simp [h.p], h.qlen⟩
  · rw [if_neg hb, if_neg hb]
    exact ⟨_, rfl, rfl, h.x, h.info, h.i0, h.i1, h.i30, h.rtol, h.atol, h.maxit, h.pre, h.brtol, h.niter, h.zlen, h.qlen,
      rfl, rfl, h.r, rfl, fun _ => rfl, fun e => by cases e⟩

theorem monitor_matches {V : CgV n R Q} {S : CgSt R Q} (h : Holds num o b t .monitor V S) (w : Fin n → R) (job : Job)
    (hj : job ≠ .interrupt) :
    ∃ r, cgRci num n (List.ofFn b) { S with c := { S.c with job := job } } = some r ∧
      Matches num o b t (cgAnswer num o b .monitor V w) r := by
  unfold cgRci
  rw [if_neg (by simp [hj]), h.task]
  dsimp only
  unfold cgStartIter
  have hw : wr S.rinfo 30 (num.ofInt (S.cg.niter + 1)) = some (S.rinfo.set 30 (num.ofInt (V.k + 1 : Nat))) := by
    rw [h.niter]
    exact wr_ofNat (i := 30) (by rw [h.info]; omega)
  simp only [hw, Option.bind_eq_bind, Option.bind_some]
  have h' : ∀ z : List R, z.length = n → Holds num o b t .monitor { V with k := V.k + 1 }
      { S with cg := { S.cg with niter := S.cg.niter + 1, z := z },
               rinfo := S.rinfo.set 30 (num.ofInt (V.k + 1 : Nat)) } := fun z hz =>
    ⟨h.x, by simp [h.info], by simp [h.i0], by simp [h.i1], by simp [h.info], h.rtol, h.atol, h.maxit, h.pre, h.brtol,
      by simp [h.niter], hz, h.qlen, h.task, h.comm, h.r, h.p, h.rz, fun e => by cases e⟩
  unfold cgAnswer
  dsimp only
  by_cases hp : o.pre = true
  · have hp0 : ¬ S.cg.precond = 0 := fun e => by rw [h.pre.1 e] at hp; cases hp
    have h1 := h' S.cg.z h.zlen
    rw [if_neg hp0, if_pos hp]
    exact ⟨_, rfl, rfl, h1.x, h1.info, h1.i0, h1.i1, h1.i30, h1.rtol, h1.atol, h1.maxit, h1.pre, h1.brtol, h1.niter,
      h1.zlen, h1.qlen, rfl, rfl, h.r, h.p, fun _ => h.rz (by simp), fun e => by cases e⟩
  · have hp0 : S.cg.precond = 0 := h.pre.2 (by simpa using hp)
    rw [if_pos hp0, if_neg hp]
    have e1 : forC 0 n (copyBody S.cg.r) S.cg.z = some (List.ofFn V.r) := by
      obtain ⟨f, hf⟩ : ∃ f : Fin n → R, S.cg.z = List.ofFn f := by
        refine ⟨fun i => S.cg.z[i]'(by rw [h.zlen]; exact i.2), ?_⟩
        apply List.ext_getElem (by simp [h.zlen])
        intro k h1 h2
        simp
      rw [hf, h.r]
      refine forC_ofFn' _ _ _ fun i g hg => ?_
      unfold copyBody
      rw [rd_ofFn']
      simp only [Option.bind_eq_bind, Option.bind_some]
      rw [wr_ofFn']
    rw [e1]
    dsimp only [Option.bind_some]
    have h2 := h' (List.ofFn V.r) (by simp)
    have h3 : Holds num o b t .monitor { V with k := V.k + 1, z := V.r }
        { S with cg := { S.cg with niter := S.cg.niter + 1, z := List.ofFn V.r },
                 rinfo := S.rinfo.set 30 (num.ofInt (V.k + 1 : Nat)) } :=
      ⟨h2.x, h2.info, h2.i0, h2.i1, h2.i30, h2.rtol, h2.atol, h2.maxit, h2.pre, h2.brtol, h2.niter, h2.zlen, h2.qlen,
        h2.task, h2.comm, h2.r, h2.p, h2.rz, h2.k0⟩
    exact direction_matches h3 rfl { S.c with job := job } .computeBeta

theorem precond_matches {V : CgV n R Q} {S : CgSt R Q} (h : Holds num o b t .precond V S) (w : Fin n → R) (job : Job)
    (hj : job ≠ .interrupt) :
    ∃ r, cgRci num n (List.ofFn b) { S with cg := { S.cg with z := List.ofFn w }, c := { S.c with job := job } } = some r ∧
      Matches num o b t (cgAnswer num o b .precond V w) r := by
  unfold cgRci
  rw [if_neg (by simp [hj]), h.task]
  dsimp only
  have hm : Holds num o b t .monitor { V with z := w }
      { S with cg := { S.cg with z := List.ofFn w, task := .startIter }, c := ⟨.crit, .r, .null⟩ } :=
    ⟨h.x, h.info, h.i0, h.i1, h.i30, h.rtol, h.atol, h.maxit, h.pre, h.brtol, h.niter, by simp, h.qlen, rfl, rfl, h.r,
      h.p, fun _ => h.rz (by simp), fun e => by cases e⟩
  exact direction_matches hm rfl { S.c with job := job } S.cg.task

theorem product_matches {V : CgV n R Q} {S : CgSt R Q} (h : Holds num o b t .product V S) (w : Fin n → R) (job : Job)
    (hj : job ≠ .interrupt) :
    ∃ r, cgRci num n (List.ofFn b) { S with cg := { S.cg with q := List.ofFn w }, c := { S.c with job := job } } = some r ∧
      Matches num o b t (cgAnswer num o b .product V w) r := by
  unfold cgRci
  rw [if_neg (by simp [hj]), h.task]
  dsimp only
  unfold cgTakeStep
  have e1 : forC 0 n (dotBody S.cg.p (List.ofFn w)) 0 = some (dot V.p w) := by
    rw [h.p]; exact dot_loop V.p w
  simp only [Option.bind_eq_bind, e1, Option.bind_some, h.rz (by simp)]
  unfold cgAnswer
  dsimp only
  by_cases hb : (num.isBad (dot V.p w) || num.isZero (dot V.p w)) = true
  · rw [if_pos hb, if_pos hb]
    exact ⟨_, rfl, rfl, Or.inl (by simp), h.x, h.info, h.i0, h.i1, h.i30, by simp [h.r], h.zlen, by simp [h.p], by simp⟩
  rw [if_neg hb, if_neg hb]
  have e2 : forC 0 n (stepBody (V.rz / dot V.p w) S.cg.p (List.ofFn w)) (S.x, S.cg.r) =
      some (List.ofFn (fun i => V.x i + V.rz / dot V.p w * V.p i) ++ t,
        List.ofFn fun i => V.r i + V.rz / dot V.p w * w i) := by
    rw [h.x, h.r, h.p]
    have := forC_ofFn2 V.x (fun i => V.x i + V.rz / dot V.p w * V.p i) t V.r
      (fun i => V.r i + V.rz / dot V.p w * w i) [] (stepBody (V.rz / dot V.p w) (List.ofFn V.p) (List.ofFn w))
      (fun i f g hf hg => by
        unfold stepBody
        simp only [List.append_nil]
        rw [rd_ofFn, rd_ofFn']
        simp only [Option.bind_eq_bind, Option.bind_some]
        rw [wr_ofFn]
        simp only [Option.bind_some]
        rw [rd_ofFn', rd_ofFn']
        simp only [Option.bind_some]
        rw [wr_ofFn', hf, hg]
        rfl)
    simpa using this
  simp only [e2, Option.bind_some, nrmN_ofFn]
  have hm : Holds num o b t .monitor { V with
        x := fun i => V.x i + V.rz / dot V.p w * V.p i, r := fun i => V.r i + V.rz / dot V.p w * w i }
      { S with cg := { S.cg with alpha := V.rz / dot V.p w, rz := V.rz,
                                 r := List.ofFn fun i => V.r i + V.rz / dot V.p w * w i,
                                 q := List.ofFn w, task := .startIter }, c := ⟨.crit, .r, .null⟩,
               x := List.ofFn (fun i => V.x i + V.rz / dot V.p w * V.p i) ++ t } :=
    ⟨rfl, h.info, h.i0, h.i1, h.i30, h.rtol, h.atol, h.maxit, h.pre, h.brtol, h.niter, h.zlen, by simp, rfl, rfl, rfl,
      h.p, fun _ => rfl, fun e => by cases e⟩
  obtain ⟨r, hr, hM⟩ := residual_matches hm { S.c with job := job } .checkConv
  cases hn : num.nrm (List.ofFn fun i => V.r i + V.rz / dot V.p w * w i) with
  | none =>
    refine ⟨_, rfl, ?_⟩
    unfold cgResidual
    simp only [hn]
    exact ⟨rfl, Or.inl (by simp), rfl, h.info, h.i0, h.i1, h.i30, by simp, h.zlen, by simp [h.p], by simp⟩
  | some rn =>
    simp only [hn] at hr
    have hw : wr S.rinfo 0 rn = some (S.rinfo.set 0 rn) := wr_ofNat (i := 0) (by rw [h.info]; omega)
    rw [hw] at hr
    dsimp only
    rw [hw]
    exact ⟨r, hr, hM⟩

/-- the first call, with whatever is in the data -/
theorem start_matches {S : CgSt R Q} {x : Fin n → R} (htask : S.cg.task = .start) (hx : S.x = List.ofFn x ++ t)
    (hinfo : S.rinfo.length = 100) (hr : S.cg.r.length = n) (hz : S.cg.z.length = n) (hp : S.cg.p.length = n)
    (hq : S.cg.q.length = n) (hrtol : S.cg.rtol = o.rtol) (hatol : S.cg.atol = o.atol) (hmaxit : S.cg.maxit = o.maxit)
    (hpre : S.cg.precond = 0 ↔ o.pre = false) :
    ∃ r, cgRci num n (List.ofFn b) S = some r ∧ Matches num o b t (cgBegin num b x) r := by
  unfold cgRci
  rw [if_neg (by simp [htask]), htask]
  dsimp only
  unfold cgStart cgBegin
  have mk : ∀ a : List R, a.length = n → ∃ f : Fin n → R, a = List.ofFn f := by
    intro a ha
    refine ⟨fun i => a[i]'(by omega), ?_⟩
    apply List.ext_getElem (by simp [ha])
    intro k h1 h2
    simp
  have e1 : forC 0 n (startBody (List.ofFn b) S.x) (S.cg.r, S.cg.p) =
      some (List.ofFn fun i => -b i, List.ofFn x) := by
    obtain ⟨f, hf⟩ := mk _ hr
    obtain ⟨f', hf'⟩ := mk _ hp
    rw [hf, hf', hx]
    have := forC_ofFn2 f (fun i => -b i) [] f' x [] (startBody (List.ofFn b) (List.ofFn x ++ t))
      (fun i g g' hg hg' => by
        unfold startBody
        simp only [List.append_nil]
        rw [rd_ofFn', rd_ofFn]
        simp only [Option.bind_eq_bind, Option.bind_some]
        rw [wr_ofFn', wr_ofFn']
        rfl)
    simpa using this
  simp only [clearInfo_eq num hinfo, e1, Option.bind_eq_bind, Option.bind_some, nrmN_ofFn]
  cases hn : num.nrm (List.ofFn b) with
  | none =>
    exact ⟨_, rfl, rfl, Or.inl (by simp), hx, by simp, by simp, by simp, by simp, by simp, hz, by simp, hq⟩
  | some bn =>
    have hw : wr (List.replicate 100 num.zeroQ) 1 bn = some ((List.replicate 100 num.zeroQ).set 1 bn) :=
      wr_ofNat (i := 1) (by simp)
    simp only [hw, Option.bind_some]
    exact ⟨_, rfl, rfl, hx, by simp, by simp, by simp, by simp, hrtol, hatol, hmaxit, hpre, by simp [hrtol], rfl, hz, hq,
      rfl, rfl, rfl, rfl, fun e => absurd rfl e, fun _ => rfl⟩

end
end Proofs
end Verif
