/-
C41, with answers that are what was asked for: the residual, and the conjugate gradient method in exact arithmetic.
-/
import Verif.Props.Cg
import Verif.Proofs.CgExact

namespace Verif
namespace Props
open Model Spec Proofs
open Matrix

/-- induction along a dialogue with truthful answers -/
theorem talk_truthful {R Q : Type} [Zero R] [Neg R] [Add R] [Sub R] [Mul R] [Div R] [LinearOrder Q] {n : Nat}
    {num : Num R Q} {o : CgOpt Q} {b : Fin n → R} {A P : (Fin n → R) → Fin n → R} (I : CgOut n R Q → Prop)
    (hI : ∀ a V (rep : Reply n R), I (.ask a V) → (rep.stop = true ∨ RightAnswer A P a V rep.w) → I (cgNext num o b (.ask a V) rep))
    {O : CgOut n R Q} (h : I O) (reps : List (Reply n R)) (ht : Truthful num o b A P O reps) :
    ∀ O' ∈ cgTalk num o b O reps, I O' := by
  induction reps generalizing O with
  | nil => cases O <;> simpa [cgTalk] using h
  | cons rep reps ih =>
    cases O with
    | done st V => simpa [cgTalk] using h
    | ask a V =>
      replace ht : _ ∧ _ := ht
      rw [cgTalk]
      intro O' hO'
      rcases List.mem_cons.1 hO' with rfl | hO'
      · exact h
      · exact ih (hI a V rep h ht.1) ht.2 O' hO'

section
variable {R Q : Type} [CommRing R] [Div R] [LinearOrder Q] {n : Nat}
variable {num : Num R Q} {o : CgOpt Q} {b : Fin n → R}

theorem residual_keeps (I : (Fin n → R) → (Fin n → R) → Prop) {V : CgV n R Q} (h : I V.x V.r) :
    I (cgResidual num o V).vars.x (cgResidual num o V).vars.r := by
  unfold cgResidual cgTest
  cases num.nrm (List.ofFn V.r) with
  | none => exact h
  | some rn =>
    dsimp only
    split
    · exact h
    · split <;> exact h

theorem direction_keeps (I : (Fin n → R) → (Fin n → R) → Prop) {V : CgV n R Q} (h : I V.x V.r) :
    I (cgDirection num V).vars.x (cgDirection num V).vars.r := by
  unfold cgDirection
  split <;> exact h

/-- **C41**, the residual.  When the products are right, whatever the preconditioner does, the residual that is
updated by recursion is A x - b for the x at hand, in every call after the first answer; so its norm, which rinfo
shows and the test uses, is the norm of A x - b. -/
theorem C41_residual (A : (Fin n → R) →ₗ[R] (Fin n → R)) (x : Fin n → R) (reps : List (Reply n R))
    (hA : ∃ P, Truthful num o b A P (cgBegin num b x) reps) :
    ∀ O ∈ cgTalk num o b (cgBegin num b x) reps, O.hasResidual → O.vars.r = A O.vars.x - b := by
  obtain ⟨P, ht⟩ := hA
  refine talk_truthful (fun O => O.hasResidual → O.vars.r = A O.vars.x - b) ?_ ?_ reps ht
  · intro a V rep h hr
    unfold cgNext
    dsimp only
    split
    · intro hh; exact hh.elim
    · rename_i hs
      replace hr := hr.resolve_left hs
      intro _
      cases a with
      | product0 =>
        refine residual_keeps (fun x r => r = A x - b) ?_
        dsimp only [RightAnswer] at hr ⊢
        rw [hr]
        funext i
        simp only [Pi.sub_apply]
        ring
      | monitor =>
        rw [cgAnswer]
        split
        · exact h trivial
        · exact direction_keeps (fun x r => r = A x - b) (h trivial)
      | precond =>
        exact direction_keeps (fun x r => r = A x - b) (h trivial)
      | product =>
        rw [cgAnswer]
        split
        · exact h trivial
        · refine residual_keeps (fun x r => r = A x - b) ?_
          dsimp only [RightAnswer] at hr ⊢
          have h1 := h trivial
          dsimp only [CgOut.vars] at h1
          have e : (fun i => V.x i + V.rz / dot V.p rep.w * V.p i) = V.x + (V.rz / dot V.p rep.w) • V.p := rfl
          rw [e, map_add, map_smul, ← hr, h1]
          funext i
          simp only [Pi.sub_apply, Pi.add_apply, Pi.smul_apply, smul_eq_mul]
          ring
  · unfold cgBegin
    cases num.nrm (List.ofFn b) with
    | none => intro h; exact h.elim
    | some bn => intro h; exact h.elim

end

section
variable {R Q : Type} [Field R] [LinearOrder R] [IsStrictOrderedRing R] [LinearOrder Q] {n : Nat}

/-- exact arithmetic: the norm is a number, breakdown means not positive, a zero residual passes the test -/
structure ExactNum (num : Num R Q) (o : CgOpt Q) (b : Fin n → R) : Prop where
  nrm : ∀ v : Fin n → R, num.nrm (List.ofFn v) ≠ none
  bad : ∀ v, num.isBad v = true → v ≤ 0
  zero : ∀ v, num.isZero v = true → v = 0
  rz0 : num.rz0 = 1
  test : ∀ V : CgV n R Q, V.r = 0 → num.nrm (List.ofFn V.r) = some V.rnorm →
    num.nrm (List.ofFn b) = some V.bnorm → converged num o V

variable {num : Num R Q} {o : CgOpt Q} {b : Fin n → R}

/-- the state of an exact solve -/
def Cgs (num : Num R Q) (o : CgOpt Q) (b : Fin n → R) (A P : (Fin n → R) →ₗ[R] (Fin n → R)) : CgOut n R Q → Prop
  | .ask .product0 V => num.nrm (List.ofFn b) = some V.bnorm ∧ V.k = 0
  | .ask .monitor V => num.nrm (List.ofFn b) = some V.bnorm ∧ V.r ≠ 0 ∧ V.k < n ∧ (V.k = 0 → V.rz = 1) ∧
      ∃ rs ps, rs.length = V.k ∧ Past A P V.r V.p V.rz rs ps
  | .ask .precond V => num.nrm (List.ofFn b) = some V.bnorm ∧ V.r ≠ 0 ∧ V.k ≤ n ∧ (V.k = 1 → V.rz = 1) ∧
      ∃ rs ps, rs.length + 1 = V.k ∧ Past A P V.r V.p V.rz rs ps
  | .ask .product V => num.nrm (List.ofFn b) = some V.bnorm ∧ V.r ≠ 0 ∧ V.k ≤ n ∧ V.rz = V.r ⬝ᵥ P V.r ∧
      ∃ rs ps p0 rz0 rz1, rs.length + 1 = V.k ∧ Past A P V.r p0 rz0 rs ps ∧ (rs ≠ [] → rz1 = rz0) ∧
        V.p = (V.r ⬝ᵥ P V.r / rz1) • p0 - P V.r
  | .done .success V => V.k ≤ n
  | .done .maxit V => 0 < o.maxit ∧ o.maxit < V.k ∧ V.k < n
  | .done .userStop _ => True
  | .done .invalidValue _ => False
  | .done _ _ => False

theorem residual_cgs {A P : (Fin n → R) →ₗ[R] (Fin n → R)} (hN : ExactNum num o b) (hP : Spd P) {V : CgV n R Q}
    (hb : num.nrm (List.ofFn b) = some V.bnorm) (hk0 : V.k = 0 → V.rz = 1) {rs ps : List (Fin n → R)}
    (hl : rs.length = V.k) (hpast : Past A P V.r V.p V.rz rs ps) : Cgs num o b A P (cgResidual num o V) := by
  unfold cgResidual
  cases hn : num.nrm (List.ofFn V.r) with
  | none => exact absurd hn (hN.nrm V.r)
  | some rn =>
    have hlen := count_le hP hpast.pair hpast.ne
    dsimp only
    unfold cgTest
    by_cases hc : converged num o { V with rnorm := rn }
    · rw [if_pos hc]
      show V.k ≤ n
      omega
    · rw [if_neg hc]
      have hr : V.r ≠ 0 := fun e => hc (hN.test { V with rnorm := rn } e hn hb)
      have hlt : V.k < n := by
        have hrs : ∀ s ∈ rs, V.r ⬝ᵥ P s = 0 := fun s hs =>
          orth_span (fun q hq => hpast.orth q hq) (hpast.span s hs)
        have := count_le (l := V.r :: rs) hP (List.pairwise_cons.2 ⟨hrs, hpast.pair⟩) (by
          intro s hs
          rcases List.mem_cons.1 hs with rfl | hs
          · exact hr
          · exact hpast.ne s hs)
        simp only [List.length_cons] at this
        omega
      split
      · rename_i hm
        exact ⟨hm.1, hm.2, hlt⟩
      · exact ⟨hb, hr, hlt, hk0, rs, ps, hl, hpast⟩

theorem past_rz_pos {A P : (Fin n → R) →ₗ[R] (Fin n → R)} (hP : Spd P) {r p : Fin n → R} {rz : R}
    {rs ps : List (Fin n → R)} (h : Past A P r p rz rs ps) (h0 : rs.length = 0 → rz = 1) : 0 < rz := by
  rcases h.last with ⟨rfl, -, -⟩ | ⟨r0, rs', ps', α, rfl, rfl, -, -, -, -, e⟩
  · rw [h0 rfl]; exact one_pos
  · rw [e]; exact hP.pos r0 (h.ne r0 (by simp))

theorem direction_cgs {A P : (Fin n → R) →ₗ[R] (Fin n → R)} (hN : ExactNum num o b) (hP : Spd P)
    {V : CgV n R Q} (hb : num.nrm (List.ofFn b) = some V.bnorm) (hr : V.r ≠ 0) (hk : V.k ≤ n) (hz : V.z = P V.r)
    (hk0 : V.k = 1 → V.rz = 1) {rs ps : List (Fin n → R)} (hl : rs.length + 1 = V.k)
    (hpast : Past A P V.r V.p V.rz rs ps) : Cgs num o b A P (cgDirection num V) := by
  unfold cgDirection
  have hpos := past_rz_pos hP hpast (fun e => hk0 (by omega))
  rw [if_neg (fun e => absurd (hN.bad _ e) (not_le.2 hpos)), dot_eq, hz]
  refine ⟨hb, hr, hk, rfl, rs, ps, V.p, V.rz, V.rz, hl, hpast, fun _ => rfl, ?_⟩
  funext i
  rfl

theorem next_cgs {A P : (Fin n → R) →ₗ[R] (Fin n → R)} (hN : ExactNum num o b) (hA : Spd A) (hP : Spd P)
    (hid : o.pre = false → P = LinearMap.id) (a : CgAsk) (V : CgV n R Q) (rep : Reply n R)
    (h : Cgs num o b A P (.ask a V)) (hr : rep.stop = true ∨ RightAnswer A P a V rep.w) : Cgs num o b A P (cgNext num o b (.ask a V) rep) := by
  unfold cgNext
  dsimp only
  split
  · trivial
  · rename_i hs
    replace hr := hr.resolve_left hs
    cases a with
    | product0 =>
      exact residual_cgs hN hP (V := { V with r := fun i => -b i + rep.w i, p := fun _ => 0, rz := num.rz0 }) h.1
        (fun _ => hN.rz0) (rs := []) (ps := []) h.2.symm
        ⟨by simp, by simp, List.Pairwise.nil, by simp, Or.inl ⟨rfl, rfl, rfl⟩⟩
    | monitor =>
      obtain ⟨h1, h2, h3, h4, rs, ps, h5, h6⟩ := h
      rw [cgAnswer]
      split
      · exact ⟨h1, h2, h3, fun e => h4 (by dsimp only at e; omega), rs, ps, by dsimp only; omega, h6⟩
      · rename_i hp
        exact direction_cgs (V := { V with k := V.k + 1, z := V.r }) hN hP h1 h2 h3
          (by rw [hid (by simpa using hp)]; rfl) (fun e => h4 (by dsimp only at e; omega)) (rs := rs) (ps := ps)
          (by dsimp only; omega) h6
    | precond =>
      obtain ⟨h1, h2, h3, h4, rs, ps, h5, h6⟩ := h
      exact direction_cgs (V := { V with z := rep.w }) hN hP h1 h2 h3 hr h4 h5 h6
    | product =>
      obtain ⟨h1, h2, h3, h4, rs, ps, p0, rz0, rz1, h5, h6, h7, h8⟩ := h
      dsimp only [RightAnswer] at hr
      rw [cgAnswer, dot_eq, hr]
      obtain ⟨hpos, hpast⟩ := h6.step hA hP h2 h8 h7 (α := V.rz / (V.p ⬝ᵥ A V.p)) (by rw [h4])
      rw [if_neg (by
        intro e
        rcases Bool.or_eq_true_iff.1 e with e | e
        · exact absurd (hN.bad _ e) (not_le.2 hpos)
        · exact absurd (hN.zero _ e) (ne_of_gt hpos))]
      refine residual_cgs (V := { V with
        x := fun i => V.x i + V.rz / (V.p ⬝ᵥ A V.p) * V.p i
        r := fun i => V.r i + V.rz / (V.p ⬝ᵥ A V.p) * A V.p i }) hN hP h1 (fun e => by dsimp only at e; omega)
        (rs := V.r :: rs) (ps := V.p :: ps) h5 ?_
      rw [← h4] at hpast
      exact hpast

/-- **C41**, the method.  In exact arithmetic, for a symmetric positive definite matrix and preconditioner (none
counts as the identity) and truthful answers, the solve never breaks down, the test holds after at most n iterations,
and what is asked for never needs more than 3n + 1 answers: with that many answers, no stop and an iteration limit of
at least n the solve ends with success at an x whose residual A x - b passes the test. -/
theorem C41_exact (hN : ExactNum num o b) {A P : (Fin n → R) →ₗ[R] (Fin n → R)} (hA : Spd A) (hP : Spd P)
    (hid : o.pre = false → P = LinearMap.id) (x : Fin n → R) (reps : List (Reply n R))
    (ht : Truthful num o b A P (cgBegin num b x) reps) :
    (∀ O ∈ cgTalk num o b (cgBegin num b x) reps, ∀ st V, O = .done st V →
      st = .success ∨ st = .userStop ∨ (st = .maxit ∧ 0 < o.maxit ∧ o.maxit < n)) ∧
    ((cgTalk num o b (cgBegin num b x) reps).length ≤ 3 * n + 2) ∧
    (3 * n + 1 ≤ reps.length → (n : Int) ≤ o.maxit → (∀ rep ∈ reps, rep.stop = false) →
      ∃ V, (cgTalk num o b (cgBegin num b x) reps).getLast? = some (.done .success V) ∧
        V.r = A V.x - b ∧ V.k ≤ n ∧ num.nrm (List.ofFn V.r) = some V.rnorm ∧
        num.nrm (List.ofFn b) = some V.bnorm ∧ converged num o V) := by
  have hbeg : Cgs num o b A P (cgBegin num b x) := by
    unfold cgBegin
    cases hb : num.nrm (List.ofFn b) with
    | none => exact absurd hb (hN.nrm b)
    | some bn => exact ⟨hb, rfl⟩
  have hall := talk_truthful (Cgs num o b A P) (fun a V rep => next_cgs hN hA hP hid a V rep) hbeg reps ht
  have h1 : ∀ O ∈ cgTalk num o b (cgBegin num b x) reps, ∀ st V, O = .done st V →
      st = .success ∨ st = .userStop ∨ (st = .maxit ∧ 0 < o.maxit ∧ o.maxit < n) := by
    rintro O hO st V rfl
    have := hall _ hO
    cases st <;> first | exact this.elim | simp
    obtain ⟨h1, h2, h3⟩ := this
    omega
  -- the clock of the calls
  have hclock : ∀ O : CgOut n R Q, Cgs num o b A P O → clock O ≤ 3 * n := by
    intro O h
    cases O with
    | done st V => simp [clock]
    | ask a V =>
      cases a with
      | product0 => simp [clock]
      | monitor => have := h.2.2.1; simp only [clock]; omega
      | precond => have := h.2.2.1; simp only [clock]; omega
      | product => have := h.2.2.1; simp only [clock]; omega
  have hpos : ∀ (O : CgOut n R Q), Cgs num o b A P O → ∀ a V, O = .ask a V → ∀ rep : Reply n R,
      (∃ st V', cgNext num o b (.ask a V) rep = .done st V') ∨
        clock (.ask a V) < clock (cgNext num o b (.ask a V) rep) := by
    rintro O h a V rfl rep
    have hw : Within ⟨o.rtol, o.atol, (n : Int) + V.k + 1, o.pre⟩ (.ask a V) := by
      cases a with
      | product0 => exact h.2
      | monitor => show (V.k : Int) ≤ _; dsimp only; omega
      | precond =>
        obtain ⟨-, -, -, -, rs, ps, e, -⟩ := h
        exact ⟨by omega, by dsimp only; omega⟩
      | product =>
        obtain ⟨-, -, -, -, rs, ps, _, _, _, e, -⟩ := h
        exact ⟨by omega, by dsimp only; omega⟩
    clear h
    unfold cgNext
    dsimp only
    split
    · exact Or.inl ⟨_, _, rfl⟩
    · have hres : ∀ W : CgV n R Q, W.k = V.k → (∃ st V', cgResidual num o W = .done st V') ∨
          clock (cgResidual num o W) = 3 * V.k + 1 := by
        intro W hW
        unfold cgResidual cgTest
        cases num.nrm (List.ofFn W.r) with
        | none => exact Or.inl ⟨_, _, rfl⟩
        | some rn =>
          dsimp only
          split
          · exact Or.inl ⟨_, _, rfl⟩
          · split
            · exact Or.inl ⟨_, _, rfl⟩
            · right; simp only [clock]; omega
      have hdir : ∀ W : CgV n R Q, (∃ st V', cgDirection num W = .done st V') ∨
          clock (cgDirection num W) = 3 * W.k := by
        intro W
        unfold cgDirection
        split
        · exact Or.inl ⟨_, _, rfl⟩
        · right; rfl
      cases a with
      | product0 =>
        rcases hres { V with r := fun i => -b i + rep.w i, p := fun _ => 0, rz := num.rz0 } rfl with e | e
        · exact Or.inl e
        · right; rw [cgAnswer, e]; simp [clock]
      | monitor =>
        rw [cgAnswer]
        split
        · right; simp only [clock]; omega
        · rcases hdir { V with k := V.k + 1, z := V.r } with e | e
          · exact Or.inl e
          · right; rw [e]; simp only [clock]; omega
      | precond =>
        simp only [Within] at hw
        rcases hdir { V with z := rep.w } with e | e
        · exact Or.inl e
        · right; rw [cgAnswer, e]; simp only [clock]; omega
      | product =>
        rw [cgAnswer]
        split
        · exact Or.inl ⟨_, _, rfl⟩
        · rcases hres { V with
            x := fun i => V.x i + V.rz / dot V.p rep.w * V.p i
            r := fun i => V.r i + V.rz / dot V.p rep.w * rep.w i } rfl with e | e
          · exact Or.inl e
          · right; rw [e]; simp only [clock]; omega
  have key : ∀ (reps : List (Reply n R)) (O : CgOut n R Q), Cgs num o b A P O → Truthful num o b A P O reps →
      (cgTalk num o b O reps).length + clock O ≤ 3 * n + 2 ∧
      (3 * n + 1 ≤ reps.length + clock O → ∃ st V, (cgTalk num o b O reps).getLast? = some (.done st V)) := by
    intro reps
    induction reps with
    | nil =>
      intro O h _
      have := hclock O h
      cases O with
      | done st V => exact ⟨by simp [cgTalk, clock], fun _ => ⟨_, _, rfl⟩⟩
      | ask a V => exact ⟨by simp [cgTalk]; omega, fun hc => by simp at hc; omega⟩
    | cons rep reps ih =>
      intro O h ht
      cases O with
      | done st V => exact ⟨by simp [cgTalk, clock], fun _ => ⟨_, _, rfl⟩⟩
      | ask a V =>
        replace ht : _ ∧ _ := ht
        have hc := hclock _ h
        have hn := next_cgs hN hA hP hid a V rep h ht.1
        obtain ⟨h3, h4⟩ := ih _ hn ht.2
        rw [cgTalk]
        obtain ⟨l, hl⟩ := talk_head (num := num) (o := o) (b := b) (cgNext num o b (.ask a V) rep) reps
        rcases hpos _ h a V rfl rep with ⟨st, V', e⟩ | h2
        · have : cgTalk num o b (cgNext num o b (.ask a V) rep) reps = [.done st V'] := by
            rw [e]; cases reps <;> rfl
          rw [this]
          exact ⟨by simp; omega, fun _ => ⟨st, V', rfl⟩⟩
        · refine ⟨by simp only [List.length_cons]; omega, fun hr => ?_⟩
          simp only [List.length_cons] at hr
          obtain ⟨st, V', e⟩ := h4 (by omega)
          refine ⟨st, V', ?_⟩
          rw [hl] at e ⊢
          rw [List.getLast?_cons_cons, e]
  obtain ⟨k1, k2⟩ := key reps _ hbeg ht
  have h0 : clock (cgBegin num b x) = 0 := by
    unfold cgBegin
    cases num.nrm (List.ofFn b) <;> rfl
  rw [h0] at k1 k2
  refine ⟨h1, k1, fun hlen hmax hns => ?_⟩
  obtain ⟨st, V, hlast⟩ := k2 hlen
  have hm := List.mem_of_mem_getLast? hlast
  have hE := C41_status (num := num) (o := o) (b := b) x reps _ hm
  have hst : st = .success := by
    rcases h1 _ hm st V rfl with h | h | ⟨-, h, h'⟩
    · exact h
    · subst h
      obtain ⟨rep, hr, hs⟩ := hE
      rw [hns rep hr] at hs
      cases hs
    · omega
  subst hst
  obtain ⟨e1, e2, e3⟩ := hE
  exact ⟨V, hlast, C41_residual A x reps ⟨P, ht⟩ _ hm trivial, hall _ hm, e2, e1, e3⟩

end
end Props
end Verif
