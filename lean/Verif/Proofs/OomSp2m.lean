import Verif.Model.OomSp2m
import Verif.Proofs.RoundedSp2m3
import Verif.Props.Sp2m

namespace Verif
open Model

section
variable {lam σ : Type}

/-- no thread fails -/
theorem inTeamM_none {fail : Nat → Bool} {w : Nat} {order : List Nat} (h : order.any fail = false) (T : Nat)
    (m : Int) (loc : lam) (body : Int → lam × σ → Option (lam × σ)) (s : σ) :
    inTeamM fail w order T m loc body s = inTeam w order T m loc body s := by
  unfold inTeamM inTeam
  induction order generalizing s with
  | nil => rfl
  | cons t L ih =>
    rw [List.any_cons, Bool.or_eq_false_iff] at h
    rw [List.foldlM_cons, List.foldlM_cons]
    have : threadRowsM fail w T m loc body t s = threadRows w T m loc body t s := by
      unfold threadRowsM
      rw [h.1]
      rfl
    rw [this]
    congr 1
    funext s'
    exact ih h.2 s'

/-- whatever threads fail, an invariant of the rows is kept -/
theorem team_keep {fail : Nat → Bool} {w T m : Nat} {order : List Nat} {loc : lam}
    {body : Int → lam × σ → Option (lam × σ)} {s : σ}
    (hov : (m : Int) * T ≤ intMax w) (hord : ∀ t ∈ order, t < T)
    (P : σ → Prop) (Q : Nat → lam → Prop) (h0 : P s) (hQ : ∀ i, Q i loc)
    (step : ∀ i s l, i < m → P s → Q i l →
      ∃ l' s', body (i : Int) (l, s) = some (l', s') ∧ P s' ∧ Q (i + 1) l') :
    ∃ s', inTeamM fail w order T m loc body s = some s' ∧ P s' := by
  have hthread : ∀ t, t < T → ∀ s, P s → ∃ s', threadRowsM fail w T m loc body t s = some s' ∧ P s' := by
    intro t ht s hP
    have h1 : (m : Int) * (t : Int) ≤ (m : Int) * T := Int.mul_le_mul_of_nonneg_left (by omega) (by omega)
    have h2 : (m : Int) * ((t : Int) + 1) ≤ (m : Int) * T :=
      Int.mul_le_mul_of_nonneg_left (by omega) (by omega)
    unfold threadRowsM threadRows
    rw [chk_of_le (Int.mul_nonneg (by omega) (by omega)) (by omega),
      chk_of_le (Int.mul_nonneg (by omega) (by omega)) (by omega)]
    have e1 : ((m : Int) * (t : Int)).tdiv T = ((m * t / T : Nat) : Int) := by
      rw [Int.tdiv_eq_ediv_of_nonneg (Int.mul_nonneg (by omega) (by omega))]; simp
    have e2 : ((m : Int) * ((t : Int) + 1)).tdiv T = ((m * (t + 1) / T : Nat) : Int) := by
      rw [Int.tdiv_eq_ediv_of_nonneg (Int.mul_nonneg (by omega) (by omega))]; simp
    simp only [Option.bind_eq_bind, Option.bind_some, e1, e2]
    by_cases hf : fail t = true
    · rw [if_pos hf]
      exact ⟨s, rfl, hP⟩
    rw [if_neg hf]
    have hle : m * t / T ≤ m * (t + 1) / T :=
      Nat.div_le_div_right (Nat.mul_le_mul_left _ (by omega))
    obtain ⟨r, hr, n, -, -, hp, -⟩ := forC_inv (f := body)
      (P := fun k (st : lam × σ) => ∃ n : Nat, k = (n : Int) ∧ m * t / T ≤ n ∧ P st.2 ∧ Q n st.1)
      (s := (loc, s)) (lo := ((m * t / T : Nat) : Int)) (hi := ((m * (t + 1) / T : Nat) : Int))
      (by omega) ⟨m * t / T, rfl, Nat.le_refl _, hP, hQ _⟩
      (by
        rintro k ⟨l, s⟩ hk1 hk2 ⟨n, rfl, hn, hp, hq⟩
        have hn2 : n < m * (t + 1) / T := by omega
        obtain ⟨l', s', hb, hp', hq'⟩ := step n s l (chunk_lt ht ⟨hn, hn2⟩) hp hq
        exact ⟨(l', s'), hb, n + 1, by push_cast; rfl, by omega, hp', hq'⟩)
    exact ⟨r.2, by rw [hr]; rfl, hp⟩
  unfold inTeamM
  revert h0
  revert s
  induction order with
  | nil => intro s h0; exact ⟨s, rfl, h0⟩
  | cons t L ih =>
    intro s h0
    obtain ⟨s1, e1, h1⟩ := hthread t (hord t (by simp)) s h0
    obtain ⟨s2, e2, h2⟩ := ih (fun t' ht' => hord t' (by simp [ht'])) (s := s1) h1
    exact ⟨s2, by rw [List.foldlM_cons, e1]; exact e2, h2⟩

end

variable {R : Type} [Zero R] [Add R] [Mul R]

omit [Zero R] [Add R] [Mul R] in
theorem TeamOk.lt {w m T : Nat} {ord : List Nat} (h : TeamOk w m T ord) : ∀ t ∈ ord, t < T :=
  fun t ht => by simpa using h.ord.mem_iff.mp ht

/-- the value stage with failing threads keeps the arrays ready -/
theorem mmFillM_keep (o : MmOom) {w : Nat} {tm : Teams} (cA cB : R → R) {A B : Csr R} (hA : A.WF)
    (hB : B.WF) (hk : A.n = B.m) (ht : TeamOk w A.m tm.t2 tm.ord2) {c : Arrs R} (hc : MmArr A B c) :
    ∃ r, mmFillM o w tm cA cB A.m B.n A.arrs B.arrs c = some r ∧ MmArr A B r.1 ∧
      (tm.ord2.any o.acc = false → r = ((mmCsr cA cB A B).arrs, false)) := by
  have hbase := hB.base01
  obtain ⟨bn, hbn⟩ : ∃ bn : Nat, (bn : Int) = B.n + B.base := ⟨(B.n + B.base).toNat, by omega⟩
  obtain ⟨r, e, d0, d1, d2, -⟩ := team_keep (fail := o.acc) (w := w) (T := tm.t2) (m := A.m) (order := tm.ord2)
    (loc := (List.replicate bn (-1), List.replicate bn (0 : R)))
    (body := mmRow cA cB A.arrs B.arrs c.ptr) (s := ((c.ind, c.val), false)) ht.ov ht.lt
    (P := MmDone cA cB A B (mmOff A B A.m) (fun _ => False)) (Q := MmLoc bn)
    ⟨rfl, hc.ind, hc.val, fun _ _ h => h.elim⟩
    (by
      intro i
      refine ⟨⟨fun _ => -1, ⟨by simp, ?_⟩, by intro k _; show (-1 : Int) < i; omega⟩,
        fun _ => 0, by simp, ?_⟩
      · intro k hk
        rw [List.getElem?_replicate, if_pos hk]
      · intro k hk
        rw [List.getElem?_replicate, if_pos hk])
    (by
      intro i s l hi' hP hQ
      obtain ⟨l', s', e, ⟨a, b, c, -⟩, q⟩ := mmRow_ok cA cB hA hB hk hi' hbn hc.ptr (fun h => h) hP hQ
      exact ⟨l', s', e, ⟨a, b, c, fun _ _ h => h.elim⟩, q⟩)
  have t1 : ((B.n : Int) + B.arrs.base).toNat = bn := by simp only [Csr.arrs]; omega
  refine ⟨({ c with ind := r.1.1, val := r.1.2 }, r.2), ?_, ⟨hc.ptr, hc.base, d1, d2⟩, ?_⟩
  · unfold mmFillM
    rw [t1, e]
    rfl
  · intro hn
    have := mmFill_ok cA cB hA hB hk ht hc.ptr hc.base hc.ind hc.val
    unfold mmFill at this
    rw [t1, ← inTeamM_none hn, e] at this
    simpa using this

/-- the finalize stage: the product, or memory_error and a handle that is still ready -/
theorem mmFinalizeM_law (o : MmOom) {w : Nat} {tm : Teams} (cA cB : R → R) {A B : Csr R}
    (hA : A.WF) (hB : B.WF) (hk : A.n = B.m) (ht : TeamOk w A.m tm.t2 tm.ord2) {flag : Int}
    {H : Sp2mH R} (hH : Counted A B flag H) :
    (tm.ord2.any o.acc = false ∧ mmFinalizeM o w tm cA cB A.m B.n A.arrs B.arrs (some H) flag
        = some (.success, some (mmH cA cB A B flag))) ∨
    (tm.ord2.any o.acc = true ∧
      ∃ H', mmFinalizeM o w tm cA cB A.m B.n A.arrs B.arrs (some H) flag = some (.memoryError, some H') ∧
        Counted A B flag H') := by
  have hlaw := (mmFinalize_law (w := w) (tm := tm) cA cB hA hB hk ht hH).1
  have hH0 := hH
  unfold mmFinalizeM
  unfold mmFinalize at hlaw
  obtain ⟨hn, hc⟩ := hH
  by_cases hf : flag = 3
  · subst hf
    rw [if_pos rfl] at hc
    obtain ⟨h1, h2, ⟨c, hcc, hm⟩, h3⟩ := hc
    simp only [hcc, h1, h2, if_true, ne_eq, not_true_eq_false, or_self, if_false] at hlaw ⊢
    obtain ⟨r, er, hr, hp⟩ := mmFillM_keep o cA cB hA hB hk ht hm
    rw [er, Option.bind_some]
    cases ha : tm.ord2.any o.acc
    · left
      refine ⟨rfl, ?_⟩
      rw [mmFill_ok cA cB hA hB hk ht hm.ptr hm.base hm.ind hm.val, Option.bind_some] at hlaw
      rw [hp ha]
      simpa using hlaw
    · right
      refine ⟨rfl, ⟨(B.n : Int), A.m, H.nnz, some r.1, H.csr⟩, by simp, hn, ?_⟩
      rw [if_pos rfl]
      exact ⟨rfl, rfl, ⟨_, rfl, hr⟩, h3⟩
  · rw [if_neg hf] at hc
    obtain ⟨h1, h2, h3, hm⟩ := hc
    simp only [hf, h1, h2, if_false, ne_eq, not_true_eq_false, or_self] at hlaw ⊢
    obtain ⟨r, er, hr, hp⟩ := mmFillM_keep o cA cB hA hB hk ht hm
    rw [er, Option.bind_some]
    cases ha : tm.ord2.any o.acc
    · left
      refine ⟨rfl, ?_⟩
      rw [mmFill_ok cA cB hA hB hk ht hm.ptr hm.base hm.ind hm.val, Option.bind_some] at hlaw
      rw [hp ha]
      simpa using hlaw
    · right
      refine ⟨rfl, ⟨(A.m : Int), B.n, H.nnz, H.csc, r.1⟩, by simp, hn, ?_⟩
      rw [if_neg hf]
      exact ⟨rfl, rfl, h3, hr⟩

/-- the counting stage: as with enough memory, or memory_error -/
theorem mmCountM_law (o : MmOom) {w : Nat} {tm : Teams} (g : Nat → Garb R) {A B : Csr R} (hA : A.WF)
    (hB : B.WF) (hk : A.n = B.m) (ht : TeamOk w A.m tm.t1 tm.ord1) (flag : Int) :
    mmCountM o w tm g A.m B.n A.arrs B.arrs flag = mmCount w tm g A.m B.n A.arrs B.arrs flag ∨
    mmCountM o w tm g A.m B.n A.arrs B.arrs flag = some (.error .memoryError) := by
  have t1 : (((A.m : Int) + 1).toNat) = A.m + 1 := by omega
  have hrep : Rep (alloc (A.m + 1) (g 2).p) (A.m + 1) (g 2).p := Rep.of_map
  obtain ⟨p0, e0, r0⟩ := hrep.wr_nat 0 (i := 0) (by omega)
  have e0' : wr (alloc (A.m + 1) (g 2).p) 0 0 = some p0 := e0
  obtain ⟨p1, e1, -⟩ := team_keep (fail := o.cnt) (w := w) (T := tm.t1) (m := A.m)
    (order := tm.ord1) (loc := List.replicate B.n (-1)) (body := mmCntRow A.arrs B.arrs)
    (s := p0) ht.ov ht.lt
    (P := fun ptr => ∃ f, Rep ptr (A.m + 1) f)
    (Q := fun i l => ∃ f, Rep l B.n f ∧ ∀ k, k < B.n → f k < (i : Int))
    ⟨_, r0⟩
    (by
      intro i
      refine ⟨fun _ => -1, ⟨by simp, ?_⟩, by intro k _; show (-1 : Int) < i; omega⟩
      intro k hk
      rw [List.getElem?_replicate, if_pos hk])
    (by
      rintro i s l hi ⟨f, hf⟩ ⟨q, hq, hq2⟩
      obtain ⟨nz', ptr', h1, h2, h3⟩ := mmCntRow_ok hA hB hk hi hq hq2 hf
      exact ⟨nz', ptr', h1, ⟨_, h2⟩, h3⟩)
  unfold mmCountM
  by_cases hp : o.ptr = true
  · rw [if_pos hp]; exact .inr rfl
  rw [if_neg hp, t1, Int.toNat_natCast]
  simp only [Option.bind_eq_bind]
  rw [e0', Option.bind_some, e1, Option.bind_some]
  cases ha : tm.ord1.any o.cnt
  · rw [if_neg (by simp)]
    unfold mmCount mmCountTailM
    rw [t1, Int.toNat_natCast]
    simp only [Option.bind_eq_bind]
    rw [e0', Option.bind_some, ← inTeamM_none ha, e1,
      Option.bind_some]
    cases hs : prefixSum (A.m : Int) 0 p1 with
    | none => exact .inl rfl
    | some s =>
      simp only [Option.bind_some]
      by_cases hv : sumOverflow 64 w s.1 = true
      · rw [if_pos hv, if_pos hv]; exact .inl rfl
      · rw [if_neg hv, if_neg hv]
        by_cases ho : o.out = true
        · rw [if_pos ho]; exact .inr rfl
        · rw [if_neg ho]
          cases hn : rd s.2 (A.m : Int) with
          | none => exact .inl rfl
          | some nnz =>
            simp only [Option.bind_some]
            by_cases hf : flag = 3
            · rw [if_pos hf, if_pos hf]
              by_cases hb : o.back = true
              · rw [if_pos hb]; exact .inr rfl
              · rw [if_neg hb]; exact .inl rfl
            · rw [if_neg hf, if_neg hf]; exact .inl rfl
  · rw [if_pos rfl]; exact .inr rfl

theorem orientGM_flip (fail : Bool) {A : Csr R} (h : A.WF) (tr isT : Bool) (g : Garb R) :
    orientGM fail tr g (A.raw isT) = some (.ok (flipC tr A).arrs) ∨
    orientGM fail tr g (A.raw isT) = some (.error .memoryError) := by
  unfold orientGM
  by_cases hf : tr = true ∧ fail = true
  · rw [if_pos hf]; exact .inr rfl
  · rw [if_neg hf, orientG_flip h tr isT g]; exact .inl rfl

/-- dispatch of a call with general descriptors -/
theorem sp2mRunM_law (o : MmOom) {w : Nat} (isReal : Bool) (tm : Teams) (g : Nat → Garb R) (cj : R → R)
    (opA : Op) (dA : Descr) (ta : Bool) {A : Csr R} (opB : Op) (dB : Descr) (tb : Bool) {B : Csr R}
    (hA : A.WF) (hB : B.WF) (hda : dA.type = 0) (hdb : dB.type = 0) (req : Int)
    (C : Option (Sp2mH R)) :
    sp2mRunM o w isReal tm g cj opA.code dA (A.raw ta) opB.code dB (B.raw tb) req C
        = mmDispatchM o w tm g
          (cjF cj isReal (if bothT ta opA tb opB then opB else opA))
          (cjF cj isReal (if bothT ta opA tb opB then opA else opB))
          (facX opA ta A opB tb B).m (facY opA ta A opB tb B).n (facX opA ta A opB tb B).arrs
          (facY opA ta A opB tb B).arrs C (effFlag ta opA tb opB) req ∨
    sp2mRunM o w isReal tm g cj opA.code dA (A.raw ta) opB.code dB (B.raw tb) req C
        = some (.memoryError, C) := by
  have b1 := eff_bits isReal ta dA.fill opA
  have b2 := eff_bits isReal tb dB.fill opB
  have d1 : (A.raw ta).doid = if ta then gt else gn := rfl
  have d2 : (B.raw tb).doid = if tb then gt else gn := rfl
  have hcj : ∀ op : Op, (if op = .conjTrans ∧ isReal = false then cj else id) = cjF cj isReal op :=
    fun _ => rfl
  unfold facX facY effFlag
  by_cases hb : bothT ta opA tb opB = true
  · have hb' : trOf ta opA = true ∧ trOf tb opB = true := by
      simpa [bothT] using hb
    left
    unfold sp2mRunM
    simp only [d1, d2, hda, hdb, b1.1, b1.2, b2.1, b2.2, hcj, hb, hb'.1, hb'.2, if_true,
      Bool.decide_eq_true, and_self]
    rfl
  · have hb' : ¬ (trOf ta opA = true ∧ trOf tb opB = true) := by
      simpa [bothT] using hb
    unfold sp2mRunM
    simp only [d1, d2, hda, hdb, b1.1, b1.2, b2.1, b2.2, hcj, hb, hb',
      Bool.decide_eq_true, if_false]
    rcases orientGM_flip o.trA hA (trOf ta opA) ta (g 0) with ea | ea
    · rcases orientGM_flip o.trB hB (trOf tb opB) tb (g 1) with eb | eb
      · left
        rw [ea, Option.bind_some]
        simp only
        rw [eb, Option.bind_some]
        simp only [Bool.false_eq_true, if_false]
        rw [(flipC_wf hA _).2.2.1, (flipC_wf hB _).2.2.2.1]
        congr 1
        · simp only [Csr.raw]; split <;> rfl
        · simp only [Csr.raw]; split <;> rfl
      · right
        rw [ea, Option.bind_some]
        simp only
        rw [eb, Option.bind_some]
    · right
      rw [ea, Option.bind_some]

theorem sp2mM_checks (o : MmOom) {cj : R → R} {w : Nat} (isReal : Bool) (tm : Teams) (g : Nat → Garb R)
    (opA : Op) {dA : Descr} (ta : Bool) {A : Csr R} (opB : Op) {dB : Descr} (tb : Bool) {B : Csr R}
    (hA : A.WF) (hB : B.WF) (hda : dA.type = 0 ∧ dA.base = A.base)
    (hdb : dB.type = 0 ∧ dB.base = B.base) (req : Int) (C : Option (Sp2mH R)) :
    sp2mM o w isReal tm g cj opA.code (some dA) (some (A.raw ta)) opB.code (some dB)
        (some (B.raw tb)) req C
      = if opCols opA ta A ≠ opRows opB tb B then
          some (.invalidSize, if req ≠ 1 then none else C)
        else if opRows opA ta A = 0 ∨ opCols opA ta A = 0 ∨ opCols opB tb B = 0 ∨ A.nnz = 0 ∨
            B.nnz = 0 then
          if o.quick = true ∧ (if req ≠ 1 then none else C) = none then some (.memoryError, none) else
          some (.success, some ((if req ≠ 1 then none else C).getD
            (zeroH R (opRows opA ta A) (opCols opB tb B))))
        else sp2mRunM o w isReal tm g cj opA.code dA (A.raw ta) opB.code dB (B.raw tb) req
          (if req ≠ 1 then none else C) := by
  have u1 : (A.raw ta).um = (userRows ta A : Int) := by cases ta <;> rfl
  have u2 : (A.raw ta).un = (userCols ta A : Int) := by cases ta <;> rfl
  have u3 : (B.raw tb).um = (userRows tb B : Int) := by cases tb <;> rfl
  have u4 : (B.raw tb).un = (userCols tb B : Int) := by cases tb <;> rfl
  have r1 : (if opA.code = 111 then (A.raw ta).um else (A.raw ta).un) = (opRows opA ta A : Int) := by
    rw [u1, u2]; unfold opRows; cases opA <;> simp [Op.code]
  have r2 : (if opA.code = 111 then (A.raw ta).un else (A.raw ta).um) = (opCols opA ta A : Int) := by
    rw [u1, u2]; unfold opCols; cases opA <;> simp [Op.code]
  have r3 : (if opB.code = 111 then (B.raw tb).um else (B.raw tb).un) = (opRows opB tb B : Int) := by
    rw [u3, u4]; unfold opRows; cases opB <;> simp [Op.code]
  have r4 : (if opB.code = 111 then (B.raw tb).un else (B.raw tb).um) = (opCols opB tb B : Int) := by
    rw [u3, u4]; unfold opCols; cases opB <;> simp [Op.code]
  have c1 : ¬ ((A.raw ta).fmt ≠ 0 ∨ (B.raw tb).fmt ≠ 0) := by simp [Csr.raw]
  have c2 : ¬ (¬ (dA.base = 0 ∨ dA.base = 1) ∨ ¬ (dB.base = 0 ∨ dB.base = 1)) := by
    rw [hda.2, hdb.2]
    have := hA.base01
    have := hB.base01
    omega
  have c3 : ¬ ((A.raw ta).base ≠ dA.base ∨ (B.raw tb).base ≠ dB.base) := by
    rw [hda.2, hdb.2]; simp [Csr.raw]
  have c4 : ¬ (dA.type ≠ 0 ∨ dB.type ≠ 0) := by simp [hda.1, hdb.1]
  have c5 : ¬ (¬ isOp opA.code ∨ ¬ isOp opB.code) := by
    cases opA <;> cases opB <;> decide
  have n1 : (A.raw ta).nnz = (A.nnz : Int) := rfl
  have n2 : (B.raw tb).nnz = (B.nnz : Int) := rfl
  unfold sp2mM
  dsimp only
  rw [if_neg c1, if_neg c2, if_neg c3, if_neg c4, if_neg c5]
  simp only [r1, r2, r3, r4, n1, n2]
  by_cases hd : opCols opA ta A ≠ opRows opB tb B
  · rw [if_pos hd, if_pos (by omega)]
  · rw [if_neg hd, if_neg (by omega)]
    by_cases hq : opRows opA ta A = 0 ∨ opCols opA ta A = 0 ∨ opCols opB tb B = 0 ∨ A.nnz = 0 ∨
            B.nnz = 0
    · rw [if_pos hq, if_pos (by omega)]
      generalize (if req ≠ 1 then none else C) = D
      cases D
      · simp only [zeroH, Option.getD_none]
        rw [show ((opRows opA ta A : Int) + 1).toNat = opRows opA ta A + 1 by omega]
        simp
      · simp
    · rw [if_neg hq, if_neg (by omega)]

/-- a finalize stage with failing allocations -/
theorem nextM_law (o : MmOom) {w : Nat} (isReal : Bool) (tm : Teams) (g : Nat → Garb R) (cj : R → R) {opA : Op}
    {dA : Descr} {ta : Bool} {A : Csr R} {opB : Op} {dB : Descr} {tb : Bool} {B : Csr R}
    (hA : A.WF) (hB : B.WF)
    (hda : dA.type = 0 ∧ dA.base = A.base) (hdb : dB.type = 0 ∧ dB.base = B.base)
    (hdim : opCols opA ta A = opRows opB tb B)
    (ht : tm.Ok w (opRows opA ta A) (opCols opB tb B)) {H : Sp2mH R}
    (hr : ReadyL opA ta A opB tb B H) :
    sp2mM o w isReal tm g cj opA.code (some dA) (some (A.raw ta)) opB.code (some dB)
        (some (B.raw tb)) 1 (some H) = some (.success, some (resH cj isReal opA ta A opB tb B)) ∨
    ∃ H', sp2mM o w isReal tm g cj opA.code (some dA) (some (A.raw ta)) opB.code (some dB)
        (some (B.raw tb)) 1 (some H) = some (.memoryError, some H') ∧ ReadyL opA ta A opB tb B H' := by
  rw [sp2mM_checks o isReal tm g opA ta opB tb hA hB hda hdb, if_neg (by simp [hdim])]
  obtain ⟨hX, hY, hXY⟩ := fac_wf (opA := opA) (ta := ta) (opB := opB) (tb := tb) hA hB hdim
  unfold resH
  rcases hr with ⟨hq, rfl⟩ | ⟨hq, hc⟩
  · left
    rw [if_pos hq]
    unfold QuickC at hq
    rw [if_pos hq, if_neg (by simp)]
    rfl
  · rw [if_neg hq]
    have hq0 := hq
    unfold QuickC at hq0
    rw [if_neg hq0]
    rcases sp2mRunM_law o (w := w) isReal tm g cj opA dA ta opB dB tb hA hB hda.1 hdb.1 1
      (if (1 : Int) ≠ 1 then none else some H) with e | e
    · rw [e]
      rcases mmFinalizeM_law o (w := w) (tm := tm)
        (cjF cj isReal (if bothT ta opA tb opB then opB else opA))
        (cjF cj isReal (if bothT ta opA tb opB then opA else opB)) hX hY hXY
        (fac_team (ta := ta) hA ht).2 hc with ⟨-, ef⟩ | ⟨-, H', ef, hc'⟩
      · left
        unfold mmDispatchM
        rw [if_neg (by decide), if_pos rfl]
        exact ef
      · right
        refine ⟨H', ?_, .inr ⟨hq, hc'⟩⟩
        unfold mmDispatchM
        rw [if_neg (by decide), if_pos rfl]
        exact ef
    · right
      exact ⟨H, by rw [e]; rfl, .inr ⟨hq, hc⟩⟩

theorem mmDispatchM_two (o : MmOom) (w : Nat) (tm : Teams) (g : Nat → Garb R) (cA cB : R → R) (mA nB : Int)
    (A B : Arrs R) (C : Option (Sp2mH R)) (flag : Int) :
    mmDispatchM o w tm g cA cB mA nB A B C flag 2 = (mmCountM o w tm g mA nB A B flag).bind fun c =>
      match c with
      | .error e => some (e, C)
      | .ok H => mmFinalizeM o w tm cA cB mA nB A B (some H) flag := by
  unfold mmDispatchM
  rw [if_neg (by decide), if_neg (by decide), if_pos rfl]
  rfl

theorem mmDispatch_two (w : Nat) (tm : Teams) (g : Nat → Garb R) (cA cB : R → R) (mA nB : Int)
    (A B : Arrs R) (C : Option (Sp2mH R)) (flag : Int) :
    mmDispatch w tm g cA cB mA nB A B C flag 2 = (mmCount w tm g mA nB A B flag).bind fun c =>
      match c with
      | .error e => some (e, C)
      | .ok H => mmFinalize w tm cA cB mA nB A B (some H) flag := by
  unfold mmDispatch
  rw [if_neg (by decide), if_neg (by decide), if_pos rfl]
  rfl

theorem mmDispatchM_zero (o : MmOom) (w : Nat) (tm : Teams) (g : Nat → Garb R) (cA cB : R → R) (mA nB : Int)
    (A B : Arrs R) (C : Option (Sp2mH R)) (flag : Int) :
    mmDispatchM o w tm g cA cB mA nB A B C flag 0 = (mmCountM o w tm g mA nB A B flag).bind fun c =>
      match c with
      | .error e => some (e, C)
      | .ok H => some (.success, some H) := by
  unfold mmDispatchM
  rw [if_pos rfl]
  rfl

theorem mmDispatch_zero (w : Nat) (tm : Teams) (g : Nat → Garb R) (cA cB : R → R) (mA nB : Int)
    (A B : Arrs R) (C : Option (Sp2mH R)) (flag : Int) :
    mmDispatch w tm g cA cB mA nB A B C flag 0 = (mmCount w tm g mA nB A B flag).bind fun c =>
      match c with
      | .error e => some (e, C)
      | .ok H => some (.success, some H) := by
  unfold mmDispatch
  rw [if_pos rfl]
  rfl

/-- a count stage or a full call with failing allocations -/
theorem startM_law (o : MmOom) {w : Nat} (isReal : Bool) (tm : Teams) (g : Nat → Garb R) (cj : R → R) {opA : Op}
    {dA : Descr} {ta : Bool} {A : Csr R} {opB : Op} {dB : Descr} {tb : Bool} {B : Csr R}
    (hA : A.WF) (hB : B.WF)
    (hda : dA.type = 0 ∧ dA.base = A.base) (hdb : dB.type = 0 ∧ dB.base = B.base)
    (hdim : opCols opA ta A = opRows opB tb B)
    (ht : tm.Ok w (opRows opA ta A) (opCols opB tb B)) (req : Int) (hreq : req = 0 ∨ req = 2)
    (C : Option (Sp2mH R)) :
    sp2mM o w isReal tm g cj opA.code (some dA) (some (A.raw ta)) opB.code (some dB)
        (some (B.raw tb)) req C
      = sp2m w isReal tm g cj opA.code (some dA) (some (A.raw ta)) opB.code (some dB)
        (some (B.raw tb)) req C ∨
    ∃ C', sp2mM o w isReal tm g cj opA.code (some dA) (some (A.raw ta)) opB.code (some dB)
        (some (B.raw tb)) req C = some (.memoryError, C') ∧
      (C' = none ∨ req = 2 ∧ ∃ H, C' = some H ∧ ReadyL opA ta A opB tb B H) := by
  have hd : ¬ opCols opA ta A ≠ opRows opB tb B := by simp [hdim]
  rw [sp2mM_checks o isReal tm g opA ta opB tb hA hB hda hdb,
    sp2m_checks isReal tm g opA ta opB tb hA hB hda hdb, if_neg hd, if_neg hd,
    if_pos (show req ≠ 1 by omega)]
  obtain ⟨hX, hY, hXY⟩ := fac_wf (opA := opA) (ta := ta) (opB := opB) (tb := tb) hA hB hdim
  by_cases hq : QuickC opA ta A opB tb B
  · unfold QuickC at hq
    rw [if_pos hq, if_pos hq]
    by_cases ho : o.quick = true
    · right
      exact ⟨none, by rw [if_pos ⟨ho, rfl⟩], .inl rfl⟩
    · left
      rw [if_neg (by simp [ho])]
  · have hq0 := hq
    unfold QuickC at hq0
    rw [if_neg hq0, if_neg hq0, sp2mRun_law isReal tm g cj opA dA ta opB dB tb hA hB hda.1 hdb.1]
    rcases sp2mRunM_law o (w := w) isReal tm g cj opA dA ta opB dB tb hA hB hda.1 hdb.1 req none with e | e
    · rw [e]
      obtain ⟨H, hc, ec⟩ := mmCount_ok (w := w) (tm := tm) g hX hY hXY (fac_team (ta := ta) hA ht).1
        (effFlag ta opA tb opB)
      rcases hreq with rfl | rfl
      · rw [mmDispatchM_zero, mmDispatch_zero]
        rcases mmCountM_law o (w := w) (tm := tm) g hX hY hXY (fac_team (ta := ta) hA ht).1
          (effFlag ta opA tb opB) with em | em
        · rw [em]; exact .inl rfl
        · rw [em]; exact .inr ⟨none, rfl, .inl rfl⟩
      · rw [mmDispatchM_two, mmDispatch_two]
        rcases mmCountM_law o (w := w) (tm := tm) g hX hY hXY (fac_team (ta := ta) hA ht).1
          (effFlag ta opA tb opB) with em | em
        · rw [em, ec]
          by_cases hs : sumOverflow 64 w (mmOff (facX opA ta A opB tb B) (facY opA ta A opB tb B)
              (facX opA ta A opB tb B).m : Int) = true
          · rw [if_pos hs]; exact .inl rfl
          · rw [if_neg hs, Option.bind_some, Option.bind_some]
            simp only
            rcases mmFinalizeM_law o (w := w) (tm := tm)
              (cjF cj isReal (if bothT ta opA tb opB then opB else opA))
              (cjF cj isReal (if bothT ta opA tb opB then opA else opB)) hX hY hXY
              (fac_team (ta := ta) hA ht).2 hc with ⟨-, ef⟩ | ⟨-, H', ef, hc'⟩
            · left
              rw [ef, (mmFinalize_law (w := w) (tm := tm) _ _ hX hY hXY
                (fac_team (ta := ta) hA ht).2 hc).1]
            · right
              exact ⟨some H', ef, .inr ⟨trivial, H', rfl, .inr ⟨hq, hc'⟩⟩⟩
        · rw [em]; exact .inr ⟨none, rfl, .inl rfl⟩
    · right
      exact ⟨none, e, .inl rfl⟩

section plenty
variable {R : Type} [Zero R] [Add R] [Mul R]

theorem inTeamM_plenty {lam σ : Type} (w : Nat) (order : List Nat) (T : Nat)
    (m : Int) (loc : lam) (body : Int → lam × σ → Option (lam × σ)) (s : σ) :
    inTeamM (fun _ => false) w order T m loc body s = inTeam w order T m loc body s :=
  inTeamM_none (by simp) T m loc body s

theorem mmCountM_plenty (w : Nat) (tm : Teams) (g : Nat → Garb R) (m n : Int) (A B : Arrs R)
    (opflag : Int) : mmCountM .plenty w tm g m n A B opflag = mmCount w tm g m n A B opflag := by
  have h : tm.ord1.any (fun _ => false) = false := by simp
  unfold mmCountM mmCount mmCountTailM
  simp only [MmOom.plenty, inTeamM_plenty, h, Bool.false_eq_true, if_false]

theorem mmFillM_plenty (w : Nat) (tm : Teams) (cjA cjB : R → R) (m n : Int) (A B c : Arrs R) :
    mmFillM .plenty w tm cjA cjB m n A B c = mmFill w tm cjA cjB m n A B c := by
  unfold mmFillM mmFill
  simp only [MmOom.plenty, inTeamM_plenty]

theorem mmFinalizeM_plenty (w : Nat) (tm : Teams) (cjA cjB : R → R) (mA nB : Int) (A B : Arrs R)
    (C : Option (Sp2mH R)) (opflag : Int) :
    mmFinalizeM .plenty w tm cjA cjB mA nB A B C opflag = mmFinalize w tm cjA cjB mA nB A B C opflag := by
  have h : tm.ord2.any (MmOom.plenty).acc = false := by simp [MmOom.plenty]
  unfold mmFinalizeM mmFinalize
  simp only [mmFillM_plenty, h, Bool.false_eq_true, if_false]
  rfl

theorem mmDispatchM_plenty (w : Nat) (tm : Teams) (g : Nat → Garb R) (cjA cjB : R → R) (mA nB : Int)
    (A B : Arrs R) (C : Option (Sp2mH R)) (opflag : Int) (req : Int) :
    mmDispatchM .plenty w tm g cjA cjB mA nB A B C opflag req
      = mmDispatch w tm g cjA cjB mA nB A B C opflag req := by
  unfold mmDispatchM mmDispatch
  simp only [mmCountM_plenty, mmFinalizeM_plenty]
  rfl

theorem orientGM_plenty (tr : Bool) (g : Garb R) (A : RawMat R) :
    orientGM false tr g A = orientG tr g A := by
  unfold orientGM
  rw [if_neg (by simp)]

theorem sp2mM_plenty (w : Nat) (isReal : Bool) (tm : Teams) (g : Nat → Garb R)
    (cj : R → R) (opA : Int) (dA : Option Descr) (A : Option (RawMat R)) (opB : Int) (dB : Option Descr)
    (B : Option (RawMat R)) (req : Int) (C : Option (Sp2mH R)) :
    sp2mM .plenty w isReal tm g cj opA dA A opB dB B req C
      = sp2m w isReal tm g cj opA dA A opB dB B req C := by
  have h1 : (MmOom.plenty).trA = false := rfl
  have h2 : (MmOom.plenty).trB = false := rfl
  have h3 : (MmOom.plenty).quick = false := rfl
  unfold sp2mM sp2m sp2mRunM sp2mRun
  simp only [mmDispatchM_plenty, h1, h2, h3, orientGM_plenty, Bool.false_eq_true, if_false]
  rfl
end plenty

end Verif
