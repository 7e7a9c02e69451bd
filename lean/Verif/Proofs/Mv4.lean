/-
`aoclsparse_optimize` keeps the objects of a handle correct.
-/
import Verif.Proofs.Mv3

namespace Verif
open Model Finset

variable {R : Type} [CommRing R] [StarRing R]

/-! ### copies made for hints -/

/-- the fields of a copy not described by `CopyOk` -/
def CopyShape (ta : Bool) (A : Csr R) (c : MCopy R) : Prop :=
  c.mtxDiag = 0 ∧ c.n = ((c.csr (userRows ta A) (userCols ta A)).n : Int) ∧ (c.doid < 4 → c.diagVal = none)

theorem makeTrans_shape {g : Garb R} {cj : R → R} {A : RawMat R} {cb : Bool} {q : Nat} {st : Status}
    {c : MCopy R} (h : makeTrans g cj A cb q = some (st, some c)) :
    c.mtxDiag = 0 ∧ c.doid = q ∧ c.n = A.m ∧ c.diagVal = none := by
  unfold makeTrans at h
  obtain ⟨r, h1, h2⟩ := Option.bind_eq_some_iff.1 h
  split at h2
  · obtain ⟨v, h3, h4⟩ := Option.bind_eq_some_iff.1 h2
    cases h4
    exact ⟨rfl, rfl, rfl, rfl⟩
  · cases h2

theorem makeFull_shape {g : Garb R} {cj re : R → R} {A : RawMat R} {hb cb : Bool} {fl q : Nat} {st : Status}
    {c : MCopy R} (h : makeFull g cj re A hb cb fl q = some (st, some c)) :
    c.mtxDiag = 0 ∧ c.doid = q ∧ c.n = A.un := by
  unfold makeFull at h
  split at h
  · cases h
  · obtain ⟨x, h1, h2⟩ := Option.bind_eq_some_iff.1 h
    obtain ⟨n, h3, h4⟩ := Option.bind_eq_some_iff.1 h2
    obtain ⟨v, h5, h6⟩ := Option.bind_eq_some_iff.1 h4
    obtain ⟨d, h7, h8⟩ := Option.bind_eq_some_iff.1 h6
    cases h8
    exact ⟨rfl, rfl, rfl⟩

theorem makeCopy_shape {g : Garb R} {cj re : R → R} {A : Csr R} {ta : Bool} {fl q : Nat} {st : Status}
    {c : MCopy R}
    (h : makeCopy g cj re (A.raw ta) (if (A.raw ta).doid = gt then transDoid q else q) fl q = some (st, some c)) :
    CopyShape ta A c := by
  have hd : (if (A.raw ta).doid = gt then transDoid q else q) = if ta then transDoid q else q := by
    cases ta <;> rfl
  rw [hd] at h
  clear hd
  have tab : ∀ q < 20, ((transDoid q = 2 ∨ transDoid q = 3) → q < 2) ∧
      (4 ≤ transDoid q ∧ transDoid q ≤ 11 → 4 ≤ q) := by decide
  have tab2 : ((if ta then transDoid q else q) = 2 ∨ (if ta then transDoid q else q) = 3 →
      kindT q = !ta) ∧ (4 ≤ (if ta then transDoid q else q) ∧ (if ta then transDoid q else q) ≤ 11 → 4 ≤ q) := by
    cases ta
    · simp only [Bool.false_eq_true, if_false]
      refine ⟨fun h => by unfold kindT; simpa using h, fun h => h.1⟩
    · simp only [if_true]
      by_cases hq : q < 20
      · refine ⟨fun h => ?_, (tab q hq).2⟩
        have := (tab q hq).1 h
        unfold kindT
        simp
        omega
      · have : transDoid q = 20 := by unfold transDoid; rw [if_pos (by unfold doidLen; omega)]; rfl
        omega
  generalize (if ta then transDoid q else q) = d at h tab2
  unfold makeCopy at h
  split at h
  · rename_i hc
    obtain ⟨h1, h2, h3, h4⟩ := makeTrans_shape h
    refine ⟨h1, ?_, fun _ => h4⟩
    rw [h3]
    have := tab2.1 hc
    simp only [MCopy.csr, h2, this]
    cases ta <;> rfl
  · have fin : ∀ {hb cb : Bool}, makeFull g cj re (A.raw ta) hb cb fl q = some (st, some c) → 4 ≤ q →
        CopyShape ta A c := by
      intro hb cb h' h4
      obtain ⟨h1, h2, h3⟩ := makeFull_shape h'
      refine ⟨h1, ?_, fun hl => by omega⟩
      have hk : kindT q = false := by unfold kindT; simp; omega
      rw [h3]
      simp only [MCopy.csr, h2, hk]
      cases ta <;> rfl
    split at h
    · rename_i hc
      exact fin h (tab2.2 ⟨hc.1, by omega⟩)
    · split at h
      · rename_i hc
        exact fin h (tab2.2 ⟨by omega, hc.2⟩)
      · cases h

theorem transform_shape {g : Garb R} {cj re : R → R} {A : Csr R} {ta : Bool} : ∀ (hs : List OptHint)
    (copies : List (MCopy R)) {r}, matrixTransform g cj re (A.raw ta) hs copies = some r →
    ∃ ext, r.2.2 = copies ++ ext ∧ ∀ c ∈ ext, CopyShape ta A c
  | [], copies, r, h => by
    simp only [matrixTransform, Option.some.injEq] at h
    subst h
    exact ⟨[], by simp, by simp⟩
  | x :: hs, copies, r, h => by
    unfold matrixTransform at h
    obtain ⟨r1, h1, h2⟩ := Option.bind_eq_some_iff.1 h
    have hx : ∃ ext, r1.2.2 = copies ++ ext ∧ ∀ c ∈ ext, CopyShape ta A c := by
      unfold transformHint at h1
      split at h1
      · cases h1; exact ⟨[], by simp, by simp⟩
      · split at h1
        · cases h1; exact ⟨[], by simp, by simp⟩
        · obtain ⟨q, h3, h4⟩ := Option.bind_eq_some_iff.1 h1
          split at h4
          · cases h4
            refine ⟨_, rfl, ?_⟩
            intro c hc
            rw [List.mem_singleton.1 hc]
            exact makeCopy_shape h3
          · cases h4; exact ⟨[], by simp, by simp⟩
    obtain ⟨ext1, e1, s1⟩ := hx
    split at h2
    · obtain ⟨q, h3, h4⟩ := Option.bind_eq_some_iff.1 h2
      cases h4
      obtain ⟨ext2, e2, s2⟩ := transform_shape hs _ h3
      refine ⟨ext1 ++ ext2, by simp only; rw [e2, e1, List.append_assoc], ?_⟩
      intro c hc
      rcases List.mem_append.1 hc with hc | hc
      · exact s1 c hc
      · exact s2 c hc
    · cases h2
      exact ⟨ext1, e1, s1⟩

omit [CommRing R] [StarRing R] in
theorem mem_csrCopies {c : MCopy R} : ∀ {L : List (Stored R)}, c ∈ csrCopies L → ∃ o iu, Stored.csr c o iu ∈ L
  | [], h => by simp [csrCopies] at h
  | s :: L, h => by
    cases s with
    | csr c' o iu =>
      rcases List.mem_cons.1 h with rfl | h
      · exact ⟨o, iu, by simp⟩
      · obtain ⟨o', iu', h'⟩ := mem_csrCopies h
        exact ⟨o', iu', List.mem_cons_of_mem _ h'⟩
    | blk _ _ _ _ _ _ | hyb _ _ _ _ _ _ | br4 _ _ =>
      obtain ⟨o', iu', h'⟩ := mem_csrCopies (L := L) h
      exact ⟨o', iu', List.mem_cons_of_mem _ h'⟩

/-- adding objects at the end -/
theorem HandleOk.append {ta : Bool} {A : Csr R} {H : MvHandle R} (hH : HandleOk ta A H)
    {L : List (Stored R)} (hL : ∀ s ∈ L, StoredOk ta A s ∧ s.opt = false) {H' : MvHandle R}
    (hr : H'.raw = H.raw) (hm : H'.mats = H.mats ++ L) (hs : H'.sorted = H.sorted)
    (hfd : H'.fulldiag = H.fulldiag) : HandleOk ta A H' := by
  obtain ⟨idl, o, iu, rest, hf⟩ := hH.first
  refine ⟨hr.trans hH.raw, ⟨idl, o, iu, rest ++ L, by rw [hm, hf, List.cons_append]⟩, ?_, ?_, ?_⟩
  · rw [hm]
    intro s h
    rcases List.mem_append.1 h with h | h
    · exact hH.all s h
    · exact (hL s h).1
  · rw [hs]; exact hH.sorted
  · rw [hm, hfd]
    intro s h ho
    rcases List.mem_append.1 h with h | h
    · exact hH.full s h ho
    · rw [(hL s h).2] at ho
      cases ho

theorem HandleOk.same {ta : Bool} {A : Csr R} {H : MvHandle R} (hH : HandleOk ta A H) {H' : MvHandle R}
    (hr : H'.raw = H.raw) (hm : H'.mats = H.mats) (hs : H'.sorted = H.sorted)
    (hfd : H'.fulldiag = H.fulldiag) : HandleOk ta A H' :=
  hH.append (L := []) (by simp) hr (by simpa using hm) hs hfd

theorem optTransform_ok {ta : Bool} {A : Csr R} (hA : A.WF) {H : MvHandle R} (hH : HandleOk ta A H)
    (unres : Bool) (g : Garb R) (re : R → R) (hre : ∀ y, star y = y → re y = y) {isReal : Bool}
    (hreal : isReal = true → ∀ y : R, star y = y) (hs : List MvHint)
    (hh : ∀ x ∈ hs, ∃ t f op, IsHint isReal t f op x.h ∧ HintOk isReal ta A t f op) :
    ∃ H' hs', optTransform unres g star re H hs = some (.success, H', hs') ∧ HandleOk ta A H' := by
  classical
  unfold optTransform
  by_cases hu : unres = true
  · rw [if_pos hu]
    have hcp : CopiesOk ta A (csrCopies H.mats.tail) := by
      intro c hc
      obtain ⟨o, iu, h⟩ := mem_csrCopies hc
      exact (hH.all _ (List.mem_of_mem_tail h)).1
    obtain ⟨hints', ext, e, -, hco, -⟩ := C43_transform (isReal := isReal) hA g re hre hreal (hs.map (·.h))
      (by
        intro x hx
        obtain ⟨y, hy, rfl⟩ := List.mem_map.1 hx
        exact hh y hy) (csrCopies H.mats.tail) hcp
    obtain ⟨ext', e1, e2⟩ := transform_shape _ _ e
    have hext : ext' = ext := (List.append_cancel_left e1).symm
    subst hext
    rw [hH.raw]
    simp only [e, Option.bind_eq_bind, Option.bind_some]
    refine ⟨_, _, rfl, ?_⟩
    refine hH.append (L := ext'.map fun c => .csr c false none) ?_ hH.raw.symm (by simp) rfl rfl
    intro s hs
    obtain ⟨c, hc, rfl⟩ := List.mem_map.1 hs
    obtain ⟨s1, s2, s3⟩ := e2 c hc
    exact ⟨⟨hco c (List.mem_append_right _ hc), s2, fun h => ⟨s3 h, s1⟩, fun h => by cases h⟩, rfl⟩
  · rw [if_neg hu]
    exact ⟨H, hs, rfl, hH⟩

/-! ### formats for the plain product -/

omit [CommRing R] [StarRing R] in
/-- rows without duplicates are not longer than the number of columns -/
theorem nnz_le_of_nodup {A : Csr R} (hA : A.WF) (hnd : A.NoDup) : A.nnz ≤ A.m * A.n := by
  have hrow : ∀ i, i < A.m → (A.row i).length ≤ A.n := by
    intro i hi
    have h1 := hnd i hi
    have h2 : ((A.row i).map fun e => e.1.toNat).Nodup := by
      have : ((A.row i).map fun e => e.1.toNat) = ((A.row i).map (·.1)).map Int.toNat := by simp
      rw [this]
      refine (List.nodup_map_iff_inj_on h1).2 ?_
      intro a ha b hb hab
      obtain ⟨e, he, rfl⟩ := List.mem_map.1 ha
      obtain ⟨e', he', rfl⟩ := List.mem_map.1 hb
      have r1 := Csr.row_range hA he
      have r2 := Csr.row_range hA he'
      omega
    have h3 : ((A.row i).map fun e => e.1.toNat) ⊆ List.range A.n := by
      intro a ha
      obtain ⟨e, he, rfl⟩ := List.mem_map.1 ha
      have r1 := Csr.row_range hA he
      rw [List.mem_range]
      omega
    have := (h2.subperm h3).length_le
    simpa using this
  rw [← Csr.entries_length hA]
  unfold Csr.entries
  rw [List.length_flatMap]
  have : ∀ m, m ≤ A.m → ((List.range m).map fun a => ((A.row a).map fun e => (a, e.1, e.2)).length).sum ≤ m * A.n := by
    intro m
    induction m with
    | zero => simp
    | succ m ih =>
      intro hm
      rw [List.range_succ, List.map_append, List.sum_append]
      have h1 := ih (by omega)
      have h2 := hrow m (by omega)
      simp only [List.map_cons, List.map_nil, List.sum_cons, List.sum_nil, List.length_map, Nat.succ_mul] at *
      omega
  exact this A.m (le_refl _)

/-- what the choice of a format relies on: no entry twice for the block format, a first row that is not
empty for the hybrid format, and for the four-row format with one-based indices -/
structure FmtOk (isa : Isa) (ch : MvChoice) (A : Csr R) : Prop where
  blk : isa.avx512 = true → A.NoDup ∧ A.n ≤ 2147483647
  br4 : ch.fmt = 1 → A.base = 0 ∨ A.row 0 ≠ []
  hyb : ch.fmt = 2 → A.row 0 ≠ []

section
variable {A : Csr R} {H : MvHandle R} {isa : Isa} {ch : MvChoice} {g : MvGarb R}

theorem optBlk_ok (hA : A.WF) (hf : FmtOk isa ch A) (hH : HandleOk false A H) (hm : 1 < A.m)
    (idl : Option (List Int)) :
    ∃ H', optBlk isa ch g H { (A.raw false).copy0 with idiag := idl } = some H' ∧ HandleOk false A H' := by
  unfold optBlk
  have hum : H.raw.um = (A.m : Int) := by rw [hH.raw]; rfl
  have hun : H.raw.un = (A.n : Int) := by rw [hH.raw]; rfl
  have hnz : H.raw.nnz = (A.nnz : Int) := by rw [hH.raw]; rfl
  rw [hum, hun, hnz]
  split
  · rename_i hc
    obtain ⟨h5, hso, h10⟩ := hc
    obtain ⟨hnd, hn⟩ := hf.blk h5
    have hle := nnz_le_of_nodup hA hnd
    have hn8 : 8 ≤ A.n := by
      by_contra hcon
      have : A.m * A.n ≤ A.m * 7 := Nat.mul_le_mul_left _ (by omega)
      omega
    obtain ⟨b, tot, e1, hb⟩ := C14_opt_blksize A hA (hH.sorted hso) hnd hn 0 ch.early ch.pick4 ch.pick2
    have e1' : optBlksize (A.m : Int) (A.nnz : Int) (A.raw false).copy0.base (some (A.raw false).copy0.ptr)
      (some (A.raw false).copy0.ind) (some 0) ch.early ch.pick4 ch.pick2 = some ((b : Int), some tot) := e1
    simp only [e1', Option.bind_eq_bind, Option.bind_some]
    rcases hb with hb | ⟨hb, hcnt⟩
    · subst hb
      exact ⟨H, by simp, hH⟩
    · rw [if_pos (by omega)]
      obtain ⟨nb, hnb, hcnt', hconv⟩ := C14_csr2blkcsr A hA (hH.sorted hso) hnd hn8 hn b (by omega)
      rw [hcnt] at hcnt'
      have htot : tot = (nb : Int) := Option.some.inj hcnt'
      subst htot
      obtain ⟨ptr, ind, val, masks, e2, hwf, -, hrow⟩ := hconv (alloc ((A.m : Int) + 1).toNat g.g1)
        (alloc (A.nnz : Int).toNat g.g2) (alloc ((A.nnz : Int) + b * 8).toNat g.gv)
        (alloc ((nb : Int) * b).toNat g.gm) (by simp) (by simpa using hnb) (by simp; omega)
        (by simp only [alloc, List.length_map, List.length_range]; rw [← Nat.cast_mul, Int.toNat_natCast])
      have e2' : csr2blkcsr (A.m : Int) (A.n : Int) (A.nnz : Int) (some (A.raw false).copy0.ptr)
        (some (A.raw false).copy0.ind) (some (A.raw false).copy0.val)
        ⟨some (alloc ((A.m : Int) + 1).toNat g.g1), some (alloc (A.nnz : Int).toNat g.g2),
          some (alloc ((A.nnz : Int) + b * 8).toNat g.gv), some (alloc ((nb : Int) * b).toNat g.gm)⟩ b
        (A.raw false).copy0.base = some (.success, ⟨some ptr, some ind, some val, some masks⟩) := e2
      simp only [e2', Option.bind_some]
      refine ⟨_, rfl, hH.append (L := [_]) ?_ rfl rfl rfl rfl⟩
      intro s hs
      rw [List.mem_singleton.1 hs]
      exact ⟨⟨rfl, rfl, b, rfl, by omega, hn8, hwf, hrow⟩, rfl⟩
  · exact ⟨H, rfl, hH⟩

theorem optBr4_ok (hA : A.WF) (hb : A.base = 0 ∨ A.row 0 ≠ []) (hH : HandleOk false A H) (hn : 0 < A.n)
    (idl : Option (List Int)) :
    ∃ H', optBr4 g H { (A.raw false).copy0 with idiag := idl } = some H' ∧ HandleOk false A H' := by
  unfold optBr4
  have hum : H.raw.um = (A.m : Int) := by rw [hH.raw]; rfl
  rw [hum]
  obtain ⟨B, e, hB⟩ := br4Build_spec hA g.g1 g.g2 g.g3 g.gv
  have e' : br4Build (A.m : Int) (A.raw false).copy0.base (A.raw false).copy0.ptr (A.raw false).copy0.ind
    (A.raw false).copy0.val g.g1 g.g2 g.g3 g.gv = some B := e
  simp only [e', Option.bind_eq_bind, Option.bind_some]
  refine ⟨_, rfl, hH.append (L := [_]) ?_ rfl rfl rfl rfl⟩
  intro s hs
  rw [List.mem_singleton.1 hs]
  exact ⟨⟨rfl, rfl, hB, br4PadOk_of hA hn hb⟩, rfl⟩

theorem optHyb_ok (hA : A.WF) (hr : A.row 0 ≠ []) (hH : HandleOk false A H) (hm : 0 < A.m)
    (idl : Option (List Int)) :
    ∃ H', optHyb g H { (A.raw false).copy0 with idiag := idl } = some H' ∧ HandleOk false A H' := by
  unfold optHyb
  have hum : H.raw.um = (A.m : Int) := by rw [hH.raw]; rfl
  have hnz : H.raw.nnz = (A.nnz : Int) := by rw [hH.raw]; rfl
  rw [hum, hnz]
  obtain ⟨w, e, -⟩ := C11_width A hA hm 0 0
  have e' : csr2ellthybWidth (A.m : Int) (A.nnz : Int) (some (A.raw false).copy0.ptr) 0 0
    = some (.success, (A.m : Int) - ((longRows A w A.m).length : Int), (w : Int)) := e
  simp only [e', Option.bind_eq_bind, Option.bind_some]
  by_cases hw : (w : Int) = 0
  · rw [if_pos hw]
    exact ⟨H, rfl, hH⟩
  · rw [if_neg hw]
    have hec : A.m * w ≤ (alloc ((w : Int) * (A.m : Int)).toNat g.g2).length := by
      simp only [alloc, List.length_map, List.length_range]
      rw [← Nat.cast_mul, Int.toNat_natCast, Nat.mul_comm]
    have hev : A.m * w ≤ (alloc ((w : Int) * (A.m : Int)).toNat g.gv).length := by
      simp only [alloc, List.length_map, List.length_range]
      rw [← Nat.cast_mul, Int.toNat_natCast, Nat.mul_comm]
    have hmap : (longRows A w A.m).length ≤
        (alloc ((A.m : Int) - ((A.m : Int) - ((longRows A w A.m).length : Int))).toNat g.g1).length := by
      simp only [alloc, List.length_map, List.length_range]
      omega
    obtain ⟨ec, ev, pad, e2, h2, h3⟩ := C11_csr2ellthybrid A hA w hm (List.length_pos_iff.2 hr)
      ((A.m : Int) - ((longRows A w A.m).length : Int)) _ _ _ hmap hec hev
    have e2' : csr2ellthybrid (A.m : Int) (A.raw false).copy0.base
        ((A.m : Int) - ((longRows A w A.m).length : Int)) (some (A.raw false).copy0.ptr)
        (some (A.raw false).copy0.ind) (some (A.raw false).copy0.val)
        (some (alloc ((A.m : Int) - ((A.m : Int) - ((longRows A w A.m).length : Int))).toNat g.g1))
        (some (alloc ((w : Int) * (A.m : Int)).toNat g.g2)) (some (alloc ((w : Int) * (A.m : Int)).toNat g.gv))
        w = _ := e2
    simp only [e2', Option.bind_some]
    refine ⟨_, rfl, hH.append (L := [_]) ?_ rfl rfl rfl rfl⟩
    intro s hs
    rw [List.mem_singleton.1 hs]
    exact ⟨⟨rfl, rfl, w, pad, _, rfl, rfl, rfl, h2, h3⟩, rfl⟩

theorem optimizeMv_ok (hA : A.WF) (hf : FmtOk isa ch A) (hH : HandleOk false A H) (dbl : Bool) :
    ∃ H', optimizeMv isa dbl ch g H = some (.success, H') ∧ HandleOk false A H' := by
  unfold optimizeMv
  by_cases hq : dbl = false ∨ H.plain = false ∨ H.raw.um ≤ 1 ∨ H.raw.un ≤ 1
  · rw [if_pos hq]
    exact ⟨_, rfl, hH.same rfl rfl rfl rfl⟩
  · rw [if_neg hq]
    have hum : H.raw.um = (A.m : Int) := by rw [hH.raw]; rfl
    have hun : H.raw.un = (A.n : Int) := by rw [hH.raw]; rfl
    have hm : 1 < A.m := by
      by_contra hc
      exact hq (.inr (.inr (.inl (by rw [hum]; omega))))
    have hn : 1 < A.n := by
      by_contra hc
      exact hq (.inr (.inr (.inr (by rw [hun]; omega))))
    obtain ⟨idl, o, iu, rest, hfst⟩ := hH.first
    rw [hfst]
    dsimp only
    by_cases ho : H.optimized = true
    · rw [if_pos ho]
      exact ⟨H, rfl, hH⟩
    · rw [if_neg ho]
      obtain ⟨H1, e1, h1⟩ := optBlk_ok (g := g) hA hf hH hm idl
      have e1' := e1
      simp only at e1'
      simp only [e1', Option.bind_eq_bind, Option.bind_some]
      have h2 : ∃ H2, optFmt ch g H1 { (A.raw false).copy0 with idiag := idl } = some H2 ∧
          HandleOk false A H2 := by
        unfold optFmt
        split
        · rename_i hc
          exact optBr4_ok hA (hf.br4 hc.2) h1 (by omega) idl
        · split
          · rename_i hc
            exact optHyb_ok hA (hf.hyb hc.2) h1 (by omega) idl
          · exact ⟨_, rfl, h1.same rfl rfl rfl rfl⟩
      obtain ⟨H2, e2, h2⟩ := h2
      have e2' := e2
      simp only at e2'
      simp only [e2', Option.bind_some]
      exact ⟨H2, rfl, h2⟩

end

/-- `aoclsparse_optimize` succeeds and keeps the handle correct -/
theorem optimize_ok {isa : Isa} {dbl unres : Bool} {srt : (Int → Int → Bool) → List Int → List Int}
    (hsrt : StdSort srt) {ch : MvChoice} {g : Garb R} {g' : MvGarb R} {re : R → R}
    (hre : ∀ y, star y = y → re y = y) {isReal : Bool} (hreal : isReal = true → ∀ y : R, star y = y)
    {ta : Bool} {A : Csr R} (hA : A.WF) (hd : A.OneDiag) (hnd : A.Grouped ∨ A.NoDup)
    (hf : ta = false → FmtOk isa ch A) {H : MvHandle R} (hH : HandleOk ta A H) (hs : List MvHint)
    (hh : ∀ x ∈ hs, ∃ t f op, IsHint isReal t f op x.h ∧ HintOk isReal ta A t f op) :
    ∃ H' hs', optimize isa dbl unres srt ch g g' star re H hs = some (.success, H', hs') ∧
      HandleOk ta A H' := by
  unfold optimize
  rw [if_neg (by
    rw [hH.raw]
    cases ta <;> simp [RawMat.um, RawMat.un, Csr.raw])]
  obtain ⟨H1, hs1, e1, h1⟩ := optTransform_ok hA hH unres g re hre hreal hs hh
  simp only [e1, Option.bind_eq_bind, Option.bind_some]
  rw [if_neg (by simp)]
  have hact : ∃ H2, optAct isa dbl srt ch g g' H1 (hs1.filter fun x => !x.h.done) H.raw.doid
      = some (.success, H2) ∧ HandleOk ta A H2 := by
    unfold optAct
    split
    · exact ⟨H1, rfl, h1⟩
    · rename_i hne
      split
      · obtain ⟨i, H2, c, iu, e2, h2, -⟩ := csrCscOptimize_spec hsrt g.i g.v hA hd hnd h1
        rw [e2]
        exact ⟨H2, rfl, h2⟩
      · split
        · rename_i hall
          have hta : ta = false := by
            obtain ⟨x, hx⟩ := List.exists_mem_of_ne_nil _ hne
            have := List.all_eq_true.1 hall x hx
            unfold isMvHint at this
            have h6 := (of_decide_eq_true this).2.2.2.2.2
            rw [hH.raw, raw_doid] at h6
            cases ta
            · rfl
            · exact absurd rfl h6
          subst hta
          exact optimizeMv_ok hA (hf rfl) h1 dbl
        · exact ⟨H1, rfl, h1⟩
  obtain ⟨H2, e2, h2⟩ := hact
  simp only [e2, Option.bind_some]
  exact ⟨_, _, rfl, h2⟩

end Verif
