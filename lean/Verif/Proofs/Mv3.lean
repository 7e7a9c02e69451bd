/-
The clean copy made on demand, and the whole matrix-vector product.
-/
import Verif.Proofs.Mv2

namespace Verif
open Model Finset

variable {R : Type} [CommRing R] [StarRing R]

omit [CommRing R] [StarRing R] in
theorem optIdx_some : ∀ (L : List (Stored R)) {i : Nat}, optIdx L = some i →
    ∃ s, L[i]? = some s ∧ s.opt = true
  | [], i, h => by simp [optIdx] at h
  | s :: L, i, h => by
    unfold optIdx at h
    by_cases hs : s.opt = true
    · rw [if_pos hs] at h
      cases h
      exact ⟨s, rfl, hs⟩
    · rw [if_neg hs] at h
      obtain ⟨j, hj, rfl⟩ := Option.map_eq_some_iff.1 h
      obtain ⟨s', h1, h2⟩ := optIdx_some L hj
      exact ⟨s', by simpa using h1, h2⟩

omit [CommRing R] [StarRing R] in
theorem csr_of_opt {s : Stored R} (h : s.opt = true) : ∃ c iu, s = .csr c true iu := by
  cases s with
  | csr c o iu =>
    have : o = true := h
    subst this
    exact ⟨c, iu, rfl⟩
  | blk _ _ _ _ _ _ | hyb _ _ _ _ _ _ | br4 _ _ => simp [Stored.opt] at h

theorem copy0_idiag_ok {A : Csr R} (hA : A.WF) (ta : Bool) (idl : Option (List Int)) :
    CopyOk (userMat ta A) (userRows ta A) (userCols ta A) { (A.raw ta).copy0 with idiag := idl } ∧
    ({ (A.raw ta).copy0 with idiag := idl } : MCopy R).csr (userRows ta A) (userCols ta A) = A := by
  classical
  have h := copy0_ok hA ta
  have hcsr : ({ (A.raw ta).copy0 with idiag := idl } : MCopy R).csr (userRows ta A) (userCols ta A) = A := by
    cases ta <;> rfl
  refine ⟨⟨h.kind, h.rows, h.wf, h.elems, ?_⟩, hcsr⟩
  intro h4
  have := raw_doid_le A ta
  have h5 : 4 ≤ (A.raw ta).doid := h4
  omega

/-- the number of entries right of the diagonal does not change -/
theorem upperCount_perm {A B : Csr R} {i : Nat}
    (h : (B.row i).Perm (A.row i ++ if (i : Int) ∉ A.cols i ∧ i < A.n then [((i : Int), 0)] else [])) :
    upperCount B i = upperCount A i := by
  unfold upperCount
  rw [(h.filter _).length_eq, List.filter_append, List.length_append]
  have : (List.filter (fun e : Int × R => decide ((i : Int) < e.1))
      (if (i : Int) ∉ A.cols i ∧ i < A.n then [((i : Int), (0 : R))] else [])).length = 0 := by
    split <;> simp
  omega

omit [CommRing R] [StarRing R] in
/-- a new copy is zero-based -/
theorem csrOptimize_base [Zero R] {srt : (Int → Int → Bool) → List Int → List Int} {gi : Nat → Int}
    {gv : Nat → R} {m n nnz base : Int} {ptr ind : List Int} {val : List R} {o : OptCsr R}
    (e : csrOptimize srt gi gv m n nnz base ptr ind val = some (.ok o)) (h : o.inPlace = false) :
    o.base = 0 := by
  unfold csrOptimize at e
  simp only [Option.bind_eq_bind, Option.bind_eq_some_iff] at e
  obtain ⟨r, -, e⟩ := e
  cases r with
  | error _ => cases e
  | ok _ =>
    simp only [Option.bind_eq_some_iff] at e
    obtain ⟨sd, -, e⟩ := e
    split at e
    · cases e
    split at e
    · simp only [Option.bind_eq_some_iff] at e
      obtain ⟨x, -, e⟩ := e
      cases e
      cases h
    · simp only [Option.bind_eq_some_iff] at e
      obtain ⟨c, -, d, -, e⟩ := e
      split at e
      · cases e
      · simp only [Option.bind_eq_some_iff] at e
        obtain ⟨f, -, x, -, e⟩ := e
        cases e
        rfl

theorem csrCscOptimize_spec {srt : (Int → Int → Bool) → List Int → List Int} (hsrt : StdSort srt)
    (gi : Nat → Int) (gv : Nat → R) {ta : Bool} {A : Csr R} (hA : A.WF) (hd : A.OneDiag)
    (hnd : A.Grouped ∨ A.NoDup) {H : MvHandle R} (hH : HandleOk ta A H) :
    ∃ i H' c iu, csrCscOptimize srt gi gv H = some (.ok (i, H')) ∧ HandleOk ta A H' ∧
      H'.mats[i]? = some (.csr c true iu) := by
  unfold csrCscOptimize
  cases ho : optIdx H.mats with
  | some i =>
    obtain ⟨s, h1, h2⟩ := optIdx_some _ ho
    obtain ⟨c, iu, rfl⟩ := csr_of_opt h2
    exact ⟨i, H, c, iu, rfl, hH, h1⟩
  | none =>
    obtain ⟨idl, op, iu, rest, hf⟩ := hH.first
    rw [hf]
    dsimp only
    obtain ⟨o, e, hwf, hcl, hperm, -, hin, hfull⟩ := C15_clean_copy hsrt gi gv hA hd hnd
    obtain ⟨o', e', -, -, hmat⟩ := C15_same_matrix hsrt gi gv hA hd hnd
    rw [e] at e'
    cases e'
    have hnz : H.raw.nnz = (A.nnz : Int) := by rw [hH.raw]; rfl
    rw [hnz]
    have e2 : csrOptimize srt gi gv (A.raw ta).copy0.m (A.raw ta).copy0.n A.nnz (A.raw ta).copy0.base
      (A.raw ta).copy0.ptr (A.raw ta).copy0.ind (A.raw ta).copy0.val = some (.ok o) := e
    simp only [e2, Option.bind_eq_bind, Option.bind_some]
    by_cases hip : o.inPlace = true
    · rw [if_pos hip]
      have hoA := hin hip
      refine ⟨0, _, _, _, rfl, ?_, rfl⟩
      refine ⟨hH.raw, ⟨some o.idiag, true, some o.iurow, rest, rfl⟩, ?_, hH.sorted, fun _ _ _ => hfull⟩
      intro s hs
      rcases List.mem_cons.1 hs with rfl | hs
      · obtain ⟨k1, k2⟩ := copy0_idiag_ok hA ta (some o.idiag)
        refine ⟨k1, by rw [k2]; rfl, fun _ => ⟨rfl, rfl⟩, fun _ => ⟨rfl, .inr rfl, ?_, ?_, o.idiag, o.iurow, rfl, rfl, ?_⟩⟩
        · intro i hi
          rw [k2]
        · rw [k2]; exact id
        · rw [k2, ← hoA]; exact hcl
      · exact hH.all s (by rw [hf]; exact List.mem_cons_of_mem _ hs)
    · rw [if_neg hip]
      refine ⟨_, _, ⟨(A.raw ta).doid, 0, A.m, A.n, o.base, o.ptr, o.ind, o.val, some o.idiag, none⟩,
        some o.iurow, rfl, ?_, ?_⟩
      swap
      · simp only
        rw [List.getElem?_append_right (by simp)]
        simp
        exact ⟨rfl, rfl, rfl⟩
      refine ⟨hH.raw, ⟨idl, op, iu, _, by rw [List.cons_append]⟩, ?_, hH.sorted, fun _ _ _ => hfull⟩
      intro s hs
      rcases List.mem_append.1 hs with hs | hs
      · exact hH.all s (by rw [hf]; exact hs)
      · rw [List.mem_singleton.1 hs]
        have hcsr : (⟨(A.raw ta).doid, 0, A.m, A.n, o.base, o.ptr, o.ind, o.val, some o.idiag, none⟩ :
            MCopy R).csr (userRows ta A) (userCols ta A) = o.csr A.m A.n := by
          cases ta <;> rfl
        refine (⟨?_, ?_, fun _ => ⟨rfl, rfl⟩, fun _ => ⟨rfl, .inl (csrOptimize_base e (by simpa using hip)), ?_, ?_, o.idiag, o.iurow, rfl, rfl, ?_⟩⟩ :
          StoredOk ta A (.csr ⟨(A.raw ta).doid, 0, A.m, A.n, o.base, o.ptr, o.ind, o.val, some o.idiag, none⟩
            true (some o.iurow)))
        · refine ⟨?_, ?_, ?_, ⟨.nonUnit, rfl, ?_⟩, ?_⟩
          · have := raw_doid_le A ta
            show (A.raw ta).doid < 12
            omega
          · rw [hcsr]; rfl
          · rw [hcsr]; exact hwf
          · rw [hcsr]
            intro i j hi hj
            rw [hmat i j hi]
            show _ = doidOp .nonUnit (A.raw ta).doid (userMat ta A) i j
            cases ta <;> rfl
          · intro h4
            have := raw_doid_le A ta
            have h5 : 4 ≤ (A.raw ta).doid := h4
            omega
        · rw [hcsr]; rfl
        · intro i hi
          rw [hcsr]
          exact upperCount_perm (hperm i hi)
        · rw [hcsr]
          intro hn i hi
          exact nodup_copy (hperm i hi) (hn i hi)
        · rw [hcsr]; exact hcl

variable [DecidableEq R]

section call
variable {isa : Isa} {k : MvSel R} {ta : Bool} {A : Csr R} {t : MType} {f : Fill} {D : Diag} {op : Op}
  {alpha beta : R} {x y : List R} {H : MvHandle R}

theorem arch_other {isa : Isa} {real dbl : Bool} {fmt e : Nat} (hf : fmt ≠ 0)
    (h : archScore isa real dbl fmt e ≠ 0) : e = gn ∧ dbl = true := by
  unfold archScore at h
  rw [if_neg hf] at h
  by_contra hc
  rw [not_and_or] at hc
  apply h
  rcases hc with hc | hc
  · simp [hc]
  · simp [hc]

/-- the product after the argument checks -/
theorem mvRun_spec {srt : (Int → Int → Bool) → List Int → List Int} (hsrt : StdSort srt) (g : Garb R)
    (hk : k.Ok) (h : MvCall k ta A t f D op x y)
    (hsq : t = .symmetric ∨ t = .hermitian → A.m = A.n) (hH : HandleOk ta A H)
    (hn : H.nulls = 0) (hm0 : A.m ≠ 0) (hz : t = .general → A.nnz ≠ 0) :
    MvOut isa k ta A t f D op alpha beta x y
      (archScore isa k.real k.dbl 0 (effDoid (A.raw ta).doid (getDoid k.real t.code f.code op.code)) ≠ 0)
      (mvRun isa k srt g op.code alpha H ⟨t.code, f.code, D.code, A.base⟩ x beta y) := by
  have hq20 : getDoid k.real t.code f.code op.code < 20 := (eff_table k.real t f op 0 (by omega)).2.2.2.2.2.2.2.2.1
  unfold mvRun
  rw [if_neg (by simp [hn])]
  dsimp only
  cases hb : getBest isa k (getDoid k.real t.code f.code op.code) H.mats with
  | none =>
    refine ⟨_, y, H, rfl, hH, fun _ => rfl, by simp, ?_⟩
    intro _ hg
    obtain ⟨idl, o, iu, rest, hf⟩ := hH.first
    have h1 : ∃ i, getBest isa k (getDoid k.real t.code f.code op.code) H.mats = some i := by
      refine getBest_isSome (s := .csr { (A.raw ta).copy0 with idiag := idl } o iu) (by rw [hf]; simp) ?_ hg
      exact (eff_table k.real t f op (A.raw ta).doid (by have := raw_doid_le A ta; omega)).1
    rw [hb] at h1
    simp at h1
  | some i =>
    obtain ⟨s, hs, he, ha⟩ := getBest_some hb
    have hsok := hH.all s (List.mem_of_getElem? hs)
    dsimp only
    unfold mvReady
    rw [hs]
    dsimp only
    have hsym : ∀ c opt iu, s = .csr c opt iu → 4 ≤ c.doid → c.doid = getDoid k.real t.code f.code op.code := by
      rintro c opt iu rfl h4
      exact eff_sym h4 hsok.1.kind hq20 he ha
    have hoth : s.fmt ≠ 0 → getDoid k.real t.code f.code op.code = gn ∧ k.dbl = true := by
      intro hf
      obtain ⟨h1, h2⟩ := arch_other hf ha
      refine ⟨?_, h2⟩
      have hd0 : s.doid = 0 := by cases s <;> first | rfl | exact absurd rfl hf
      rw [hd0] at h1
      have := (eff_table k.real t f op 0 (by omega)).2.2.2.2.2.2.2.1 h1
      exact this.symm
    by_cases hcl : t.code ≠ 0 ∧ needsClean (getDoid k.real t.code f.code op.code) s = true
    · rw [if_pos hcl]
      have htne : t ≠ .general := by
        intro hc; rw [hc] at hcl; exact hcl.1 rfl
      obtain ⟨i', H', c, iu, e1, h1, h2⟩ := csrCscOptimize_spec hsrt g.i g.v h.wf (h.cleanable htne).1
        (h.cleanable htne).2 hH
      have hok := h1.all _ (List.mem_of_getElem? h2)
      have hdo := (hok.2.2.2 rfl).1
      simp only [e1, Option.bind_eq_bind, Option.bind_some]
      have := mvOn_spec (isa := isa) (alpha := alpha) (beta := beta) hk h hsq h1 hm0 hz h2
        (by
          rintro c' opt' iu' heq
          cases heq
          exact ⟨fun _ => .inl rfl, fun h4 => by
            have := raw_doid_le A ta
            omega⟩) (fun hf => absurd rfl hf) (opc := op.code.toNat)
      have hgood : effDoid (Stored.csr c true iu).doid (getDoid k.real t.code f.code op.code)
        = effDoid (A.raw ta).doid (getDoid k.real t.code f.code op.code) := by
        show effDoid c.doid _ = _
        rw [hdo]
      rw [hgood] at this
      exact this
    · rw [if_neg hcl]
      simp only [Option.bind_eq_bind, Option.bind_some]
      have := mvOn_spec (isa := isa) (alpha := alpha) (beta := beta) hk h hsq hH hm0 hz hs
        (by
          intro c opt iu heq
          refine ⟨?_, hsym c opt iu heq⟩
          intro hne
          subst heq
          rw [not_and_or] at hcl
          rcases hcl with hc | hc
          · exfalso
            apply hc
            cases t <;> simp [MType.code] at hne ⊢
          · unfold needsClean at hc
            cases opt
            · right
              simpa using hc
            · exact .inl rfl) hoth (opc := op.code.toNat)
      obtain ⟨st, y', H', e1, e2, e3, e4, e5⟩ := this
      exact ⟨st, y', H', e1, e2, e3, e4, fun hs' _ => e5 hs' ha⟩

theorem vscale_spec {n : Nat} (hn : n ≤ y.length) :
    ∃ y', vscale beta (n : Int) y = some y' ∧ y'.length = y.length ∧
      (∀ i, i < n → y'[i]? = some (beta * y.getD i 0)) ∧ ∀ i, n ≤ i → y'[i]? = y[i]? := by
  have key : ∀ F : Int → List R → Option (List R),
      (∀ (i : Nat) z, i < n → z.length = y.length → z[i]? = y[i]? →
        F i z = some (z.set i (beta * y.getD i 0))) →
      ∃ y', forC 0 (n : Int) F y = some y' ∧ y'.length = y.length ∧
      (∀ i, i < n → y'[i]? = some (beta * y.getD i 0)) ∧ ∀ i, n ≤ i → y'[i]? = y[i]? := by
    intro F hF
    refine forC_inv_nat (n := n) (s := y) (P := fun k z => z.length = y.length ∧
      (∀ i, i < k → z[i]? = some (beta * y.getD i 0)) ∧ ∀ i, k ≤ i → z[i]? = y[i]?)
      ⟨rfl, fun i hi => absurd hi (by omega), fun _ _ => rfl⟩ ?_
    rintro k z hk ⟨h1, h2, h3⟩
    refine ⟨_, hF k z hk h1 (h3 k (le_refl _)), by simpa using h1, ?_, ?_⟩
    · intro i hi
      by_cases hik : i = k
      · subst hik
        rw [List.getElem?_set_self (by omega)]
      · rw [List.getElem?_set_ne (by omega)]
        exact h2 i (by omega)
    · intro i hi
      rw [List.getElem?_set_ne (by omega)]
      exact h3 i (by omega)
  unfold vscale
  split
  · refine key _ ?_
    intro i z hi hl hz
    have : rd z (i : Int) = some (y.getD i 0) := by
      rw [rd_ofNat, hz, List.getD_eq_getElem?_getD, List.getElem?_eq_getElem (by omega)]
      rfl
    simp only [this, Option.bind_eq_bind, Option.bind_some]
    exact wr_ofNat (by omega)
  · rename_i hb
    refine key _ ?_
    intro i z hi hl hz
    rw [not_not] at hb
    rw [hb, zero_mul]
    exact wr_ofNat (by omega)

end call
end Verif
