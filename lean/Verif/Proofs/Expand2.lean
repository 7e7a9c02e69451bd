/-
The loops of the expansion of a symmetric or Hermitian matrix.
-/
import Verif.Proofs.Expand
import Verif.Proofs.Loop

namespace Verif
open Model

variable {R : Type}

theorem cntK_le_prefix {a b : List (Int × Int × R)} (h : a <+: b) (k : Nat) :
    cntK (a.map (·.1)) k ≤ cntK (b.map (·.1)) k := by
  obtain ⟨c, rfl⟩ := h
  rw [List.map_append]
  exact cntK_le_of_prefix k

theorem incr_ok {a : List Int} {len : Nat} {f : Nat → Int} (h : Rep a len f) {k : Nat} (hk : k < len)
    {x : Int} (hx : x = (k : Int)) :
    ∃ b, incr a x = some b ∧ Rep b len (fun j => if k = j then f j + 1 else f j) := by
  subst hx
  obtain ⟨b, e, r⟩ := h.wr_nat (f k + 1) hk
  refine ⟨b, ?_, r.congr ?_⟩
  · unfold incr
    rw [h.rd_nat hk]
    exact e
  · intro j _
    by_cases hj : k = j
    · subst hj; simp
    · rw [if_neg hj, Function.update_of_ne (fun h => hj h.symm)]

/-- value kept as the diagonal of a row -/
def lastDiag [Zero R] (re : R → R) (i : Nat) (L : List (Int × R)) : R :=
  L.foldl (fun d e => if e.1 = (i : Int) then re e.2 else d) 0

section
variable {A : Csr R} {u : Bool} {hc re : R → R} {d : Nat → R}

theorem tri_col (hA : A.WF) (hsq : A.n = A.m) {i : Nat} {e : Int × R} (he : e ∈ A.row i) :
    ∃ c : Nat, e.1 = (c : Int) ∧ c < A.m := by
  have := Csr.row_range hA he
  exact ⟨e.1.toNat, by omega, by omega⟩

/-- counters after some items -/
def CntOk (m : Nat) (pre : List (Int × Int × R)) (s : List Int × List Int) : Prop :=
  Rep s.1 (m + 1) (fun k => if k = 0 then 0 else (cntK (pre.map (·.1)) (3 * (k - 1)) : Int)) ∧
  Rep s.2 m (fun k => (cntK (pre.map (·.1)) (3 * k + 2) : Int))

theorem cntOk_congr {m : Nat} {p p' : List (Int × Int × R)} {s : List Int × List Int}
    (h : CntOk m p s) (h1 : ∀ k, cntK (p.map (·.1)) (3 * k) = cntK (p'.map (·.1)) (3 * k))
    (h2 : ∀ k, cntK (p.map (·.1)) (3 * k + 2) = cntK (p'.map (·.1)) (3 * k + 2)) : CntOk m p' s :=
  ⟨h.1.congr fun k _ => by
    split
    · rfl
    · rw [h1],
   h.2.congr fun k _ => by rw [h2]⟩

/-- one left and one right item -/
theorem cntOk_step {m : Nat} {p p' : List (Int × Int × R)} {s : List Int × List Int} {l r : Nat}
    (h : CntOk m p s) (hl : l < m) (hr : r < m) {xl xr : Int} (el : xl = (l : Int) + 1)
    (er : xr = (r : Int))
    (hp : ∀ k, cntK (p'.map (·.1)) k = cntK (p.map (·.1)) k + (if 3 * l = k then 1 else 0)
      + (if 3 * r + 2 = k then 1 else 0)) :
    ∃ a b, incr s.1 xl = some a ∧ incr s.2 xr = some b ∧ CntOk m p' (a, b) := by
  obtain ⟨a, ea, ra⟩ := incr_ok h.1 (k := l + 1) (by omega) (x := xl) (by omega)
  obtain ⟨b, eb, rb⟩ := incr_ok h.2 (k := r) hr er
  refine ⟨a, b, ea, eb, ra.congr ?_, rb.congr ?_⟩
  · intro k _
    try dsimp only
    rw [hp (3 * (k - 1)), if_neg (show ¬ 3 * r + 2 = 3 * (k - 1) by omega)]
    by_cases hk : k = 0
    · rw [if_neg (by omega), if_pos hk, if_pos hk]
    · rw [if_neg hk, if_neg hk]
      by_cases hk2 : l + 1 = k
      · rw [if_pos hk2, if_pos (by omega)]; push_cast; ring
      · rw [if_neg hk2, if_neg (by omega)]; push_cast; ring
  · intro k _
    try dsimp only
    rw [hp (3 * k + 2), if_neg (show ¬ 3 * l = 3 * k + 2 by omega)]
    by_cases hk2 : r = k
    · rw [if_pos hk2, if_pos (by omega)]; push_cast; ring
    · rw [if_neg hk2, if_neg (by omega)]; push_cast; ring

theorem cntK_evE_tri {p : List (Int × Int × R)} {i c : Nat} {v : R} (ht : inTri (!u) i c = true)
    (k : Nat) : cntK ((p ++ evE u hc i ((c : Int), v)).map (·.1)) k
      = cntK (p.map (·.1)) k + (if ownK u i = k then 1 else 0) + (if mirK u c = k then 1 else 0) := by
  have he : evE u hc i ((c : Int), v)
      = [(((ownK u i : Nat) : Int), (c : Int), v)] ++ [(((mirK u c : Nat) : Int), (i : Int), hc v)] := by
    unfold evE
    simp [ht]
  rw [he, ← List.append_assoc, cntK_snoc, cntK_snoc]

/-- one entry -/
theorem expCount_ok (hA : A.WF) (hsq : A.n = A.m) {i : Nat} (hi : i < A.m) {e : Int × R}
    (he : e ∈ A.row i) {pre : List (Int × Int × R)} {s : List Int × List Int} (h : CntOk A.m pre s) :
    ∃ s', expCount u i e.1 s = some s' ∧ CntOk A.m (pre ++ evE u hc i e) s' := by
  obtain ⟨c, ec, hcm⟩ := tri_col hA hsq he
  obtain ⟨e1, v⟩ := e
  simp only at ec
  subst ec
  unfold expCount
  by_cases ht : inTri (!u) i c = true
  · have hev := cntK_evE_tri (hc := hc) (p := pre) (v := v) ht
    cases u
    · have hlt : c < i := by simpa [inTri] using ht
      obtain ⟨a, b, ea, eb, hab⟩ := cntOk_step h hi hcm (xl := (i : Int) + 1) rfl rfl
        (p' := pre ++ evE false hc i ((c : Int), v)) (by
          intro k
          rw [hev k]
          simp [ownK, mirK])
      refine ⟨(a, b), ?_, hab⟩
      rw [if_pos ⟨rfl, by simpa using hlt⟩, ea]
      simp [eb]
    · have hlt : i < c := by simpa [inTri] using ht
      obtain ⟨a, b, ea, eb, hab⟩ := cntOk_step h hcm hi (xl := (c : Int) + 1) rfl rfl
        (p' := pre ++ evE true hc i ((c : Int), v)) (by
          intro k
          rw [hev k]
          simp only [ownK, mirK, if_true, Nat.add_zero]
          omega)
      refine ⟨(a, b), ?_, hab⟩
      rw [if_neg (by simp), if_pos ⟨rfl, by simpa using hlt⟩, ea]
      simp [eb]
  · have hev : evE u hc i ((c : Int), v) = [] := by
      unfold evE; simp [ht]
    rw [hev, List.append_nil]
    refine ⟨s, ?_, h⟩
    cases u
    · have : ¬ (c : Int) < i := by simpa [inTri] using ht
      rw [if_neg (fun h => this h.2), if_neg (by simp)]
    · have : ¬ (i : Int) < c := by simpa [inTri] using ht
      rw [if_neg (by simp), if_neg (fun h => this h.2)]

/-- the counting loop -/
theorem expCountAll_ok (hA : A.WF) (hsq : A.n = A.m) {s : List Int × List Int}
    (h : CntOk (R := R) A.m [] s) :
    ∃ s', expCountAll A.m A.base A.ptr A.ind u s = some s' ∧ CntOk A.m (evs u hc d A A.m) s' := by
  unfold expCountAll
  refine forC_inv_nat (P := fun i s => CntOk A.m (evs u hc d A i) s) h ?_
  intro i s hi hs
  rw [hA.rd_ptr (by omega)]
  have hp1 : rd A.ptr ((i : Int) + 1) = some (A.p (i + 1)) := by
    have := hA.rd_ptr (i := i + 1) (by omega)
    simpa using this
  rw [hp1]
  simp only [Option.bind_eq_bind, Option.bind_some]
  rw [Csr.forC_row' hA hi (F := fun j s => (rd A.ind j).bind fun c => expCount u i (c - A.base) s) (G := fun c _ s => expCount u i c s)
    (by
      intro j c v s h1 _ _
      rw [h1]
      simp)]
  obtain ⟨s', e', h'⟩ := foldlM_inv (f := fun s (e : Int × R) => expCount u i e.1 s)
    (l := A.row i) (s := s)
    (P := fun pre s => CntOk A.m (evs u hc d A i ++ pre.flatMap (evE u hc i)) s)
    (by simpa using hs) (by
      intro pre x suf s hl hs
      obtain ⟨s', e', h'⟩ := expCount_ok (u := u) (hc := hc) hA hsq hi (e := x) (by rw [hl]; simp) hs
      refine ⟨s', e', ?_⟩
      rw [List.flatMap_append, ← List.append_assoc]
      simpa using h')
  refine ⟨s', e', ?_⟩
  rw [evs_succ]
  unfold evRow
  rw [← List.append_assoc]
  refine cntOk_congr h' ?_ ?_
  · intro k
    rw [cntK_snoc, if_neg (by omega)]
    rfl
  · intro k
    rw [cntK_snoc, if_neg (by omega)]
    rfl

theorem keys_nonneg (c : Int) (h : c ∈ (evs u hc d A A.m).map (·.1)) : 0 ≤ c := by
  simp only [evs, evRow, evE, List.mem_map, List.mem_flatMap, List.mem_append] at h
  obtain ⟨a, ⟨i, _, h⟩, rfl⟩ := h
  rcases h with ⟨e, _, h⟩ | h
  · split at h
    · simp at h
      rcases h with h | h <;> rw [h] <;> simp
    · simp at h
  · simp at h
    rw [h]
    simp
    omega

theorem keys_lt (hA : A.WF) (hsq : A.n = A.m) (c : Int) (h : c ∈ (evs u hc d A A.m).map (·.1)) :
    c < ((3 * A.m : Nat) : Int) := by
  simp only [evs, evRow, evE, List.mem_map, List.mem_flatMap, List.mem_append] at h
  obtain ⟨a, ⟨i, hi, h⟩, rfl⟩ := h
  rw [List.mem_range] at hi
  rcases h with ⟨e, he, h⟩ | h
  · obtain ⟨q, eq, hq⟩ := tri_col hA hsq he
    have hqn : e.1.toNat = q := by omega
    rw [hqn] at h
    split at h
    · simp at h
      rcases h with h | h <;> rw [h]
      · unfold ownK; dsimp only; split <;> push_cast <;> omega
      · unfold mirK; dsimp only; split <;> push_cast <;> omega
    · simp at h
  · simp at h
    rw [h]
    try dsimp only
    push_cast
    omega

/-- all keys -/
abbrev evKs (u : Bool) (hc : R → R) (d : Nat → R) (A : Csr R) : List Int :=
  (evs u hc d A A.m).map (·.1)

theorem cnt_diag {i : Nat} (hi : i < A.m) : cntK (evKs u hc d A) (3 * i + 1) = 1 := by
  rw [← bucket_length, bucket_diag, if_pos hi]
  rfl

/-- the scan -/
theorem expScan_ok {s : List Int × List Int} (h : CntOk A.m (evs u hc d A A.m) s) {idiag : List Int}
    (hd : idiag.length = A.m) :
    ∃ q, forC 0 (A.m : Int) (expScan s.2) (s.1, idiag) = some q ∧
      Rep q.1 (A.m + 1) (fun k => (startK (evKs u hc d A) (3 * k) : Int)) ∧
      Rep q.2 A.m (fun k => (startK (evKs u hc d A) (3 * k + 1) : Int)) := by
  have hr := Rep.of_list idiag 0
  rw [hd] at hr
  obtain ⟨q, e, h1, h2⟩ := forC_inv_nat (n := A.m) (f := expScan s.2) (s := (s.1, idiag))
    (P := fun i q => Rep q.1 (A.m + 1) (fun k => if k ≤ i then (startK (evKs u hc d A) (3 * k) : Int)
        else (cntK (evKs u hc d A) (3 * (k - 1)) : Int)) ∧
      Rep q.2 A.m (fun k => if k < i then (startK (evKs u hc d A) (3 * k + 1) : Int)
        else idiag.getD k 0))
    ⟨h.1.congr (by
        intro k _
        try dsimp only
        by_cases hk : k = 0
        · subst hk
          rw [if_pos rfl, if_pos (by omega), Nat.mul_zero, startK_zero _ keys_nonneg]
          rfl
        · rw [if_neg hk, if_neg (by omega)]),
      hr.congr (by intro k _; simp)⟩
    (by
      rintro i ⟨p, dg⟩ hi ⟨h1, h2⟩
      simp only at h1 h2
      have r1 := h1.rd_nat (i := i) (by omega)
      have r2 := h1.rd_nat (i := i + 1) (by omega)
      have r3 := h.2.rd_nat hi
      rw [if_pos (le_refl i)] at r1
      rw [if_neg (show ¬ i + 1 ≤ i by omega), Nat.add_sub_cancel] at r2
      obtain ⟨dg', e2, w2⟩ := h2.wr_nat ((startK (evKs u hc d A) (3 * i) : Int)
        + (cntK (evKs u hc d A) (3 * i) : Int)) hi
      obtain ⟨p', e1, w1⟩ := h1.wr_nat (i := i + 1) ((cntK (evKs u hc d A) (3 * i) : Int)
        + ((startK (evKs u hc d A) (3 * i) : Int) + (cntK (evKs u hc d A) (3 * i + 2) : Int) + 1)) (by omega)
      refine ⟨(p', dg'), ?_, w1.congr ?_, w2.congr ?_⟩
      · unfold expScan
        push_cast at r2 e1
        simp only [r1, r2, r3, e1, e2, Option.bind_eq_bind, Option.bind_some]
      · intro k hk
        try dsimp only
        by_cases hki : k = i + 1
        · subst hki
          rw [Function.update_self, if_pos (le_refl _)]
          have a1 := startK_succ (evKs u hc d A) (3 * i)
          have a2 : startK (evKs u hc d A) (3 * i + 2) = _ := startK_succ (evKs u hc d A) (3 * i + 1)
          have a3 := startK_succ (evKs u hc d A) (3 * i + 2)
          have a4 := cnt_diag (u := u) (hc := hc) (d := d) hi
          have a5 : 3 * (i + 1) = 3 * i + 2 + 1 := by omega
          rw [a5]
          omega
        · rw [Function.update_of_ne hki]
          by_cases hk2 : k ≤ i
          · rw [if_pos hk2, if_pos (by omega)]
          · rw [if_neg hk2, if_neg (by omega)]
      · intro k hk
        try dsimp only
        by_cases hki : k = i
        · subst hki
          rw [Function.update_self, if_pos (by omega), startK_succ]
          push_cast
          rfl
        · rw [Function.update_of_ne hki]
          by_cases hk2 : k < i
          · rw [if_pos hk2, if_pos (by omega)]
          · rw [if_neg hk2, if_neg (by omega)])
  refine ⟨q, e, h1.congr ?_, h2.congr ?_⟩
  · intro k hk
    try dsimp only
    rw [if_pos (by omega)]
  · intro k hk
    try dsimp only
    rw [if_pos hk]

/-- the cursors -/
theorem expCursor_ok {ptr idiag cur : List Int}
    (h1 : Rep ptr (A.m + 1) (fun k => (startK (evKs u hc d A) (3 * k) : Int)))
    (h2 : Rep idiag A.m (fun k => (startK (evKs u hc d A) (3 * k + 1) : Int)))
    (hcur : cur.length = A.m) :
    ∃ c, expCursor A.m u ptr idiag cur = some c ∧
      Rep c A.m (fun k => (startK (evKs u hc d A) (mirK u k) : Int)) := by
  have hr := Rep.of_list cur 0
  rw [hcur] at hr
  unfold expCursor
  cases u
  · rw [if_neg (by simp)]
    obtain ⟨c, e, r⟩ := fill_rep (g := fun k => (startK (evKs false hc d A) (3 * k + 1) : Int) + 1) hr
      (n := A.m) (le_refl _) (fun i c => do
        let p ← rd idiag i
        wr c i (p + 1)) (by
        intro i a hi
        simp only [h2.rd_nat hi, Option.bind_eq_bind, Option.bind_some])
    refine ⟨c, e, r.congr ?_⟩
    intro k hk
    try dsimp only
    have e3 : mirK false k = 3 * k + 1 + 1 := by simp [mirK]
    rw [if_pos hk, e3, startK_succ _ (3 * k + 1), cnt_diag hk]
    push_cast
    rfl
  · rw [if_pos rfl]
    obtain ⟨c, e, r⟩ := fill_rep (g := fun k => (startK (evKs true hc d A) (3 * k) : Int)) hr
      (n := A.m) (le_refl _) (fun i c => do
        let p ← rd ptr i
        wr c i p) (by
        intro i a hi
        simp only [h1.rd_nat (show i < A.m + 1 by omega), Option.bind_eq_bind, Option.bind_some])
    refine ⟨c, e, r.congr ?_⟩
    intro k hk
    try dsimp only
    rw [if_pos hk]
    rfl

theorem expStart_ok {ptr idiag : List Int}
    (h1 : Rep ptr (A.m + 1) (fun k => (startK (evKs u hc d A) (3 * k) : Int)))
    (h2 : Rep idiag A.m (fun k => (startK (evKs u hc d A) (3 * k + 1) : Int))) {i : Nat}
    (hi : i < A.m) :
    expStart u ptr idiag i = some (startK (evKs u hc d A) (ownK u i) : Int) := by
  unfold expStart
  cases u
  · rw [if_neg (by simp), h1.rd_nat (by omega)]
    rfl
  · have e3 : ownK true i = 3 * i + 1 + 1 := by simp [ownK]
    rw [if_pos rfl, h2.rd_nat hi, e3, startK_succ _ (3 * i + 1), cnt_diag hi]
    rfl

/-- state after the items `pre` while row `i` is being filled -/
structure FillOk (u : Bool) (hc : R → R) (d : Nat → R) (A : Csr R) (pre : List (Int × Int × R))
    (cur ind : List Int) (val : List R) : Prop where
  cur : Rep cur A.m (fun j =>
    ((startK (evKs u hc d A) (mirK u j) + cntK (pre.map (·.1)) (mirK u j) : Nat) : Int))
  placed : Placed (evs u hc d A A.m) pre ind val

theorem expFill_ok [Zero R] (hA : A.WF) (hsq : A.n = A.m) {i : Nat} {e : Int × R}
    (he : e ∈ A.row i) {pre : List (Int × Int × R)} {s : ExpSt R}
    (hpre : pre ++ evE u hc i e <+: evs u hc d A A.m)
    (h : FillOk u hc d A pre s.cur s.ind s.val)
    (hpos : s.pos = ((startK (evKs u hc d A) (ownK u i) + cntK (pre.map (·.1)) (ownK u i) : Nat) : Int)) :
    ∃ s', expFill hc re u i e.1 e.2 s = some s' ∧
      FillOk u hc d A (pre ++ evE u hc i e) s'.cur s'.ind s'.val ∧
      s'.pos = ((startK (evKs u hc d A) (ownK u i)
        + cntK ((pre ++ evE u hc i e).map (·.1)) (ownK u i) : Nat) : Int) ∧
      s'.diag = if e.1 = (i : Int) then re e.2 else s.diag := by
  obtain ⟨c, ec, hcm⟩ := tri_col hA hsq he
  obtain ⟨e1, v⟩ := e
  simp only at ec
  subst ec
  unfold expFill
  have hcond : ((u = false ∧ (c : Int) < i) ∨ (u = true ∧ (i : Int) < c)) ↔ inTri (!u) i c = true := by
    cases u <;> simp [inTri]
  by_cases ht : inTri (!u) i c = true
  · have hne : ¬ (c : Int) = (i : Int) := by
      intro h
      have : c = i := by omega
      subst this
      cases u <;> simp [inTri] at ht
    rw [if_pos (hcond.2 ht), if_neg hne]
    have hev : evE u hc i ((c : Int), v)
        = [(((ownK u i : Nat) : Int), (c : Int), v)] ++ [(((mirK u c : Nat) : Int), (i : Int), hc v)] := by
      unfold evE
      simp [ht]
    rw [hev, ← List.append_assoc] at hpre ⊢
    obtain ⟨ind1, val1, w1, w2, p1⟩ := placed_snoc h.placed
      ((List.prefix_append _ _).trans hpre) hpos
    have hq := h.cur.rd_nat hcm
    have hcm2 : cntK ((pre ++ [(((ownK u i : Nat) : Int), (c : Int), v)]).map (·.1)) (mirK u c)
        = cntK (pre.map (·.1)) (mirK u c) := by
      rw [cntK_snoc, if_neg ownK_ne_mirK]; rfl
    obtain ⟨ind2, val2, w3, w4, p2⟩ := placed_snoc p1 hpre
      (pos := ((startK (evKs u hc d A) (mirK u c) + cntK (pre.map (·.1)) (mirK u c) : Nat) : Int))
      (by rw [hcm2])
    obtain ⟨cur', w5, rc⟩ := h.cur.wr_nat
      (((startK (evKs u hc d A) (mirK u c) + cntK (pre.map (·.1)) (mirK u c) : Nat) : Int) + 1) hcm
    refine ⟨⟨cur', ind2, val2, s.pos + 1, s.diag⟩, ?_, ⟨rc.congr ?_, p2⟩, ?_, rfl⟩
    · simp only [w1, w2, w3, w4, w5, hq, Option.bind_eq_bind, Option.bind_some]
    · intro k hk
      try dsimp only
      rw [cntK_snoc, cntK_snoc, if_neg (ownK_ne_mirK)]
      by_cases hkc : k = c
      · subst hkc
        rw [Function.update_self, if_pos rfl]
        push_cast
        ring
      · rw [Function.update_of_ne hkc, if_neg (fun h => hkc (mirK_inj.1 h).symm)]
        rfl
    · try dsimp only
      rw [hpos, cntK_snoc, cntK_snoc, if_pos rfl, if_neg (fun h => ownK_ne_mirK h.symm)]
      push_cast
      ring
  · have hev : evE u hc i ((c : Int), v) = [] := by
      unfold evE; simp [ht]
    rw [if_neg (fun h => ht (hcond.1 h)), hev, List.append_nil]
    by_cases hci : (c : Int) = (i : Int)
    · rw [if_pos hci, if_pos hci]
      exact ⟨_, rfl, h, hpos, rfl⟩
    · rw [if_neg hci, if_neg hci]
      exact ⟨s, rfl, h, hpos, rfl⟩

/-- one row of the filling loop -/
theorem expRow_ok [Zero R] (hA : A.WF) (hsq : A.n = A.m) (hd : ∀ i, d i = lastDiag re i (A.row i))
    {ptr idiag : List Int}
    (h1 : Rep ptr (A.m + 1) (fun k => (startK (evKs u hc d A) (3 * k) : Int)))
    (h2 : Rep idiag A.m (fun k => (startK (evKs u hc d A) (3 * k + 1) : Int))) {i : Nat}
    (hi : i < A.m) {cur ind : List Int} {val dv : List R} {f : Nat → R}
    (h : FillOk u hc d A (evs u hc d A i) cur ind val)
    (hdv : Rep dv A.m f) :
    ∃ cur' ind' val' dv', expRow hc re A.base A.ptr A.ind A.val u ptr idiag i (cur, ind, val, dv)
        = some (cur', ind', val', dv') ∧
      FillOk u hc d A (evs u hc d A (i + 1)) cur' ind' val' ∧
      Rep dv' A.m (Function.update f i (d i)) := by
  unfold expRow
  rw [expStart_ok h1 h2 hi, hA.rd_ptr (by omega)]
  have hp1 : rd A.ptr ((i : Int) + 1) = some (A.p (i + 1)) := by
    have := hA.rd_ptr (i := i + 1) (by omega)
    simpa using this
  rw [hp1]
  simp only [Option.bind_eq_bind, Option.bind_some]
  rw [Csr.forC_row' hA hi (F := fun idx t => (rd A.ind idx).bind fun j =>
      (rd A.val idx).bind fun v => expFill hc re u i (j - A.base) v t) (G := fun c v t => expFill hc re u i c v t)
    (by
      intro j c v s h1 h2 _
      rw [h1, h2]
      simp)]
  have hfull : evs u hc d A i ++ (A.row i).flatMap (evE u hc i)
      ++ [(((3 * i + 1 : Nat) : Int), (i : Int), d i)] <+: evs u hc d A A.m := by
    have := evs_prefix u hc d A (show i + 1 ≤ A.m by omega)
    rw [evs_succ] at this
    unfold evRow at this
    rwa [← List.append_assoc] at this
  have hz : cntK ((evs u hc d A i).map (·.1)) (ownK u i) = 0 := by
    rw [← bucket_length, bucket_own, if_neg (by omega)]
    rfl
  obtain ⟨t, et, ht, _, htd⟩ := foldlM_inv (f := fun t (e : Int × R) => expFill hc re u i e.1 e.2 t)
    (l := A.row i)
    (s := (⟨cur, ind, val, (startK (evKs u hc d A) (ownK u i) : Int), 0⟩ : ExpSt R))
    (P := fun pre t => FillOk u hc d A (evs u hc d A i ++ pre.flatMap (evE u hc i)) t.cur t.ind t.val ∧
      t.pos = ((startK (evKs u hc d A) (ownK u i)
        + cntK ((evs u hc d A i ++ pre.flatMap (evE u hc i)).map (·.1)) (ownK u i) : Nat) : Int) ∧
      t.diag = lastDiag re i pre)
    (by
      refine ⟨by simpa using h, ?_, rfl⟩
      rw [List.flatMap_nil, List.append_nil, hz]
      rfl)
    (by
      rintro pre x suf t hl ⟨g1, g2, g3⟩
      have hflat : (evs u hc d A i ++ (pre ++ [x]).flatMap (evE u hc i))
          = evs u hc d A i ++ pre.flatMap (evE u hc i) ++ evE u hc i x := by
        rw [List.flatMap_append, ← List.append_assoc]
        simp
      have hpp : evs u hc d A i ++ pre.flatMap (evE u hc i) ++ evE u hc i x <+: evs u hc d A A.m := by
        refine List.IsPrefix.trans ?_ hfull
        rw [hl, List.flatMap_append, List.flatMap_cons]
        exact ⟨suf.flatMap (evE u hc i) ++ [(((3 * i + 1 : Nat) : Int), (i : Int), d i)], by simp⟩
      obtain ⟨t', e', f1, f2, f3⟩ := expFill_ok (re := re) hA hsq (e := x) (by rw [hl]; simp) hpp g1 g2
      refine ⟨t', e', by rw [hflat]; exact f1, by rw [hflat]; exact f2, ?_⟩
      rw [f3, g3]
      unfold lastDiag
      rw [List.foldl_append]
      rfl)
  rw [et]
  simp only [Option.bind_some]
  have hzd : cntK ((evs u hc d A i ++ (A.row i).flatMap (evE u hc i)).map (·.1)) (3 * i + 1) = 0 := by
    rw [← bucket_length, bucket_part, bucket_row_diag, bucket_diag, if_neg (by omega)]
    rfl
  obtain ⟨ind', val', w1, w2, p1⟩ := placed_snoc ht.placed hfull
    (pos := (startK (evKs u hc d A) (3 * i + 1) : Int)) (by rw [hzd]; rfl)
  obtain ⟨dv', w3, rd'⟩ := hdv.wr_nat (d i) hi
  have htd' : t.diag = d i := by rw [htd, hd]
  refine ⟨t.cur, ind', val', dv', ?_, ⟨?_, ?_⟩, rd'⟩
  · rw [h2.rd_nat hi]
    simp only [Option.bind_some, htd', w1, w2, w3]
  · refine ht.cur.congr ?_
    intro k _
    try dsimp only
    rw [evs_succ]
    unfold evRow
    rw [← List.append_assoc, cntK_snoc, if_neg (fun h => mirK_ne_diag h.symm)]
    rfl
  · rw [evs_succ]
    unfold evRow
    rw [← List.append_assoc]
    exact p1

/-- the rows of the expanded matrix -/
def expRows (u : Bool) (hc : R → R) (d : Nat → R) (A : Csr R) (i : Nat) : List (Int × R) :=
  bucket (evs u hc d A A.m) (3 * i) ++ ((i : Int), d i) :: bucket (evs u hc d A A.m) (3 * i + 2)

theorem offs_expRows {i : Nat} (hi : i ≤ A.m) :
    offs (expRows u hc d A) i = startK (evKs u hc d A) (3 * i) := by
  induction i with
  | zero => rw [offs_zero, Nat.mul_zero, startK_zero _ keys_nonneg]
  | succ i ih =>
    rw [offs_succ, ih (by omega), show 3 * (i + 1) = 3 * i + 1 + 1 + 1 by omega, startK_succ, startK_succ,
      startK_succ, cnt_diag (by omega)]
    unfold expRows
    rw [List.length_append, List.length_cons, bucket_length, bucket_length]
    show _ + (cntK (evKs u hc d A) (3 * i) + (cntK (evKs u hc d A) (3 * i + 2) + 1)) = _
    omega

/-- what the expansion builds -/
theorem convertGeneral_ok [Zero R] (hA : A.WF) (hsq : A.n = A.m)
    (hd : ∀ i, d i = lastDiag re i (A.row i)) (g : Garb R) :
    ∃ x, convertGeneral hc re g A.m A.base A.ptr A.ind A.val u = some x ∧
      (⟨A.m, A.m, 0, x.ptr, x.ind, x.val⟩ : Csr R) = mkCsr A.m A.m 0 (expRows u hc d A) ∧
      Rep x.idiag A.m (fun k => (startK (evKs u hc d A) (3 * k + 1) : Int)) ∧
      Rep x.diagVal A.m d := by
  unfold convertGeneral
  have t1 : ((A.m : Int) + 1).toNat = A.m + 1 := by omega
  rw [t1, Int.toNat_natCast]
  -- clearing
  obtain ⟨ptr0, e0, r0⟩ : ∃ p, expClear A.m (alloc (A.m + 1) g.p) = some p ∧
      Rep p (A.m + 1) (fun _ => 0) := by
    unfold expClear
    have hr := Rep.of_list (alloc (A.m + 1) g.p) 0
    rw [alloc_length] at hr
    obtain ⟨b, e, r⟩ := fill_rep (g := fun _ => (0 : Int)) hr (n := A.m) (by omega)
      (fun i p => wr p i 0) (fun i a _ => rfl)
    obtain ⟨b', e', r'⟩ := r.wr_nat (i := A.m) 0 (by omega)
    refine ⟨b', by rw [e]; exact e', r'.congr ?_⟩
    intro k hk
    by_cases hkm : k = A.m
    · subst hkm; simp
    · rw [Function.update_of_ne hkm, if_pos (by omega)]
  rw [e0]
  obtain ⟨idg0, e1, r1⟩ : ∃ p, forC 0 (A.m : Int) (fun i d => wr d i 0) (alloc A.m g.i) = some p ∧
      p.length = A.m := by
    have hr := Rep.of_list (alloc A.m g.i) 0
    rw [alloc_length] at hr
    obtain ⟨b, e, r⟩ := fill_rep (g := fun _ => (0 : Int)) hr (n := A.m) (by omega)
      (fun i p => wr p i 0) (fun i a _ => rfl)
    exact ⟨b, e, r.1⟩
  simp only [Option.bind_eq_bind, Option.bind_some]
  rw [e1]
  simp only [Option.bind_some]
  have hc0 : CntOk (R := R) A.m [] (ptr0, List.replicate A.m 0) := by
    refine ⟨r0.congr (fun k _ => by simp [cntK]), by simp, fun k hk => ?_⟩
    simp [hk, cntK]
  obtain ⟨s, e2, hs⟩ := expCountAll_ok (u := u) (hc := hc) (d := d) hA hsq hc0
  rw [e2]
  simp only [Option.bind_some]
  obtain ⟨q, e3, q1, q2⟩ := expScan_ok hs r1
  rw [e3]
  simp only [Option.bind_some]
  have hlen : startK (evKs u hc d A) (3 * A.m) = (evs u hc d A A.m).length := by
    rw [startK_full _ _ (keys_lt hA hsq), List.length_map]
  rw [q1.rd_nat (show A.m < A.m + 1 by omega)]
  simp only [Option.bind_some]
  obtain ⟨cur, e4, c1⟩ := expCursor_ok q1 q2 (cur := List.replicate A.m 0) (by simp)
  rw [e4]
  simp only [Option.bind_some, Int.toNat_natCast, hlen]
  have hdv0 := Rep.of_list (alloc A.m g.v) 0
  rw [alloc_length] at hdv0
  obtain ⟨⟨cur', ind, val, dv⟩, e5, f5, r5⟩ := forC_inv_nat (n := A.m)
    (f := expRow hc re A.base A.ptr A.ind A.val u q.1 q.2)
    (s := (cur, alloc (evs u hc d A A.m).length g.i, alloc (evs u hc d A A.m).length g.v, alloc A.m g.v))
    (P := fun i s => FillOk u hc d A (evs u hc d A i) s.1 s.2.1 s.2.2.1 ∧
      Rep s.2.2.2 A.m (fun k => if k < i then d k else (alloc A.m g.v).getD k 0))
    ⟨⟨c1.congr (fun k _ => by simp [evs, cntK]),
        placed_nil (by simp) (by simp)⟩, hdv0.congr (by intro k _; simp)⟩
    (by
      rintro i ⟨cur, ind, val, dv⟩ hi ⟨g1, g2⟩
      obtain ⟨cur', ind', val', dv', e, a1, a2⟩ := expRow_ok (re := re) hA hsq hd q1 q2 hi g1 g2
      refine ⟨_, e, a1, a2.congr ?_⟩
      intro k _
      try dsimp only
      by_cases hki : k = i
      · subst hki; rw [Function.update_self, if_pos (by omega)]
      · rw [Function.update_of_ne hki]
        by_cases hk2 : k < i
        · rw [if_pos hk2, if_pos (by omega)]
        · rw [if_neg hk2, if_neg (by omega)])
  rw [e5]
  refine ⟨_, rfl, ?_, q2, r5.congr (fun k hk => if_pos hk)⟩
  have ho := offs_expRows (u := u) (hc := hc) (d := d) (A := A) (le_refl A.m)
  have hP := f5.placed
  simp only at hP
  have h0 := csr_of_win (n := A.m) (base := 0) (rows := expRows u hc d A) (m := A.m) (ptr := q.1)
    (ind := ind) (val := val) ?_ (by rw [ho, hlen, hP.len1]) (by rw [ho, hlen, hP.len2]) ?_ ?_
  · rw [← h0, ho, hlen, List.take_of_length_le (by rw [hP.len1]), List.take_of_length_le (by rw [hP.len2])]
  · rw [q1.eq_map]
    apply List.map_congr_left
    intro i hi
    rw [List.mem_range] at hi
    rw [offs_expRows (by omega)]
    simp
  · intro i hi
    rw [offs_expRows (by omega)]
    have a1 := hP.win1 (3 * i)
    have a2 := hP.win1 (3 * i + 1)
    have a3 := hP.win1 (3 * i + 2)
    rw [startK_succ _ (3 * i + 1), cnt_diag hi] at a3
    rw [startK_succ _ (3 * i)] at a2 a3
    rw [bucket_diag, if_pos hi] at a2
    have hb := bucket_length (evs u hc d A A.m) (3 * i)
    have := a1.append (L2 := ((i : Int), d i).1 :: (bucket (evs u hc d A A.m) (3 * i + 2)).map (·.1)) (by
      rw [List.length_map, hb]
      exact a2.append (L1 := [((i : Int), d i).1]) a3)
    simpa [expRows] using this
  · intro i hi
    rw [offs_expRows (by omega)]
    have a1 := hP.win2 (3 * i)
    have a2 := hP.win2 (3 * i + 1)
    have a3 := hP.win2 (3 * i + 2)
    rw [startK_succ _ (3 * i + 1), cnt_diag hi] at a3
    rw [startK_succ _ (3 * i)] at a2 a3
    rw [bucket_diag, if_pos hi] at a2
    have hb := bucket_length (evs u hc d A A.m) (3 * i)
    have := a1.append (L2 := ((i : Int), d i).2 :: (bucket (evs u hc d A A.m) (3 * i + 2)).map (·.2)) (by
      rw [List.length_map, hb]
      exact a2.append (L1 := [((i : Int), d i).2]) a3)
    simpa [expRows] using this

end

end Verif
