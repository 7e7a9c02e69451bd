import Verif.Model.Sp2m
import Verif.Proofs.CsrAdd2
import Verif.Proofs.Bsr

namespace Verif
open Model

variable {R : Type}

/-! ### the rows of a product -/

/-- the columns met while row `i` is processed -/
def mmCols (A B : Csr R) (i : Nat) : List Int :=
  (A.row i).flatMap fun e => (B.row e.1.toNat).map (·.1)

/-- number of entries of row `i` of the product -/
def mmLen (A B : Csr R) (i : Nat) : Nat := (firsts (mmCols A B i)).length

def mmOff (A B : Csr R) (i : Nat) : Nat := ((List.range i).map (mmLen A B)).sum

theorem mmOff_succ (A B : Csr R) (i : Nat) : mmOff A B (i + 1) = mmOff A B i + mmLen A B i := by
  simp [mmOff, List.range_succ]

theorem mmOff_mono (A B : Csr R) {i j : Nat} (h : i ≤ j) : mmOff A B i ≤ mmOff A B j := by
  induction h with
  | refl => exact Nat.le_refl _
  | step _ ih => rw [mmOff_succ]; omega

theorem mmCols_range {A B : Csr R} (hB : B.WF) {i : Nat} {c : Int} (h : c ∈ mmCols A B i) :
    0 ≤ c ∧ c < B.n := by
  simp only [mmCols, List.mem_flatMap, List.mem_map] at h
  obtain ⟨_, _, e, he, rfl⟩ := h
  exact Csr.row_range hB he

/-! ### counting -/

/-- stamps while counting row `i` -/
def MmCnt (n i : Nat) (cols : List Int) (s : List Int × Int) : Prop :=
  (∃ f, Rep s.1 n f ∧ ∀ k, k < n → f k ≤ (i : Int) ∧ (f k = (i : Int) ↔ (k : Int) ∈ cols)) ∧
    s.2 = (firsts cols).length

theorem mmCnt_step {n i : Nat} {cols : List Int} {s : List Int × Int} (h : MmCnt n i cols s)
    {c : Int} (hc : 0 ≤ c ∧ c < n) :
    ∃ s', addCntB (i : Int) c s = some s' ∧ MmCnt n i (cols ++ [c]) s' := by
  obtain ⟨⟨f, hf, hf2⟩, hs⟩ := id h
  obtain ⟨k, hk⟩ : ∃ k : Nat, c = (k : Int) := ⟨c.toNat, by omega⟩
  subst hk
  have hkn : k < n := by omega
  have hcase := (hf2 k hkn).2
  unfold addCntB
  rw [hf.rd_nat hkn]
  simp only [Option.bind_eq_bind, Option.bind_some]
  by_cases hin : (k : Int) ∈ cols
  · rw [if_neg (by simp [hcase.mpr hin])]
    refine ⟨s, rfl, ⟨f, hf, ?_⟩, ?_⟩
    · intro k' hk'
      refine ⟨(hf2 k' hk').1, ?_⟩
      rw [(hf2 k' hk').2, List.mem_append, List.mem_singleton]
      constructor
      · exact Or.inl
      · rintro (h | h)
        · exact h
        · rw [h]; exact hin
    · rw [firsts_append, if_pos (mem_firsts.mpr hin), hs]
  · rw [if_pos (fun e => hin (hcase.mp e))]
    obtain ⟨a, e1, r1⟩ := hf.wr_nat (i : Int) hkn
    refine ⟨(a, s.2 + 1), by rw [e1]; rfl, ⟨_, r1, ?_⟩, ?_⟩
    · intro k' hk'
      rw [List.mem_append, List.mem_singleton]
      by_cases e : k' = k
      · subst e
        rw [Function.update_self]
        exact ⟨le_refl _, fun _ => .inr rfl, fun _ => rfl⟩
      · rw [Function.update_of_ne e]
        refine ⟨(hf2 k' hk').1, ?_⟩
        rw [(hf2 k' hk').2]
        constructor
        · exact Or.inl
        · rintro (h | h)
          · exact h
          · exfalso; apply e; omega
    · rw [firsts_append, if_neg (fun h => hin (mem_firsts.mp h)), hs]
      simp

/-- the unrolled loop over a row of B is a fold over the row -/
theorem mmCntInner_eq {B : Csr R} (hB : B.WF) {k : Nat} (hk : k < B.m) (i : Int)
    (s : List Int × Int) :
    mmCntInner B.arrs i k s = (B.row k).foldlM (fun s e => addCntB i e.1 s) s := by
  have h1 := hB.rd_ptr (i := k) (by omega)
  have h2 := hB.rd_ptr (i := k + 1) (by omega)
  have hm := hB.mono (i := k) (j := k + 1) (by omega) (by omega)
  rw [show ((k + 1 : Nat) : Int) = (k : Int) + 1 by omega] at h2
  unfold mmCntInner
  simp only [Csr.arrs, h1, h2, Option.bind_eq_bind, Option.bind_some]
  obtain ⟨len, hlen⟩ : ∃ len : Nat, B.p (k + 1) - B.p k = len :=
    ⟨(B.p (k + 1) - B.p k).toNat, by omega⟩
  rw [hlen, Int.tdiv_eq_ediv_of_nonneg (by omega), Int.tmod_eq_emod_of_nonneg (by omega)]
  have eq : ((len : Int) / 4) * 4 = ((4 * (len / 4) : Nat) : Int) := by push_cast; ring
  have er : (len : Int) % 4 = ((len % 4 : Nat) : Int) := by push_cast; rfl
  rw [eq, er]
  have hf : ∀ (c : Int) (q : Nat) s,
      forS 0 (((4 * q : Nat) : Int)) 4 (fun k s => mmCnt4 B.arrs i (c + k) s) s
        = forC 0 (((4 * q : Nat) : Int)) (fun k s => mmCntK B.arrs i (c + k) s) s := by
    intro c q s
    have := forS_unroll (K := 4) (by omega) (f := fun k s => mmCntK B.arrs i (c + k) s)
      (g := fun k s => mmCnt4 B.arrs i (c + k) s)
      (by
        intro k s
        rw [forC_four]
        simp only [mmCnt4, Option.bind_eq_bind, Int.add_assoc]) q 0 s
    simpa using this
  have hl : B.p (k + 1) - B.base = B.p k - B.base + len := by omega
  rw [← Csr.forC_row' hB hk (F := mmCntK B.arrs i) (G := fun c _ s => addCntB i c s)
    (by intro j c v s h1 h2 _; simp [mmCntK, Csr.arrs, h1]) s, hl]
  have hs := hf (B.p k - B.base) (len / 4) s
  simp only [Csr.arrs] at hs
  rw [hs, forC_shift, forC_split (lo := B.p k - B.base)
    (mid := B.p k - B.base + ((4 * (len / 4) : Nat) : Int)) (by omega) (by omega), Int.add_zero]
  congr 1
  funext s'
  rw [forC_shift]
  congr 1
  · omega
  · omega

theorem mmCntRow_ok {A B : Csr R} (hA : A.WF) (hB : B.WF) (hk : A.n = B.m)
    {i : Nat} (hi : i < A.m) {nz ptr : List Int}
    {f p : Nat → Int} (hf : Rep nz B.n f) (hf2 : ∀ k, k < B.n → f k < (i : Int))
    (hp : Rep ptr (A.m + 1) p) :
    ∃ nz' ptr', mmCntRow A.arrs B.arrs (i : Int) (nz, ptr) = some (nz', ptr') ∧
      Rep ptr' (A.m + 1) (Function.update p (i + 1) (mmLen A B i : Int)) ∧
      ∃ f', Rep nz' B.n f' ∧ ∀ k, k < B.n → f' k < ((i + 1 : Nat) : Int) := by
  have hp1 := hA.rd_ptr (i := i) (by omega)
  have hp2 := hA.rd_ptr (i := i + 1) (by omega)
  rw [show ((i + 1 : Nat) : Int) = (i : Int) + 1 by omega] at hp2
  have l1 := Csr.forC_row' hA hi (F := fun j c => do
      let col ← rd A.ind j
      mmCntInner B.arrs (i : Int) (col - A.base) c)
    (G := fun c _ s => ((B.row c.toNat).map (·.1)).foldlM (fun s c => addCntB (i : Int) c s) s)
    (by
      intro j c v s h1 h2 hmem
      have hr := Csr.row_range hA hmem
      obtain ⟨q, rfl⟩ : ∃ q : Nat, c = (q : Int) := ⟨c.toNat, by omega⟩
      have := mmCntInner_eq hB (k := q) (by omega) (i : Int) s
      simp only [h1, Option.bind_eq_bind, Option.bind_some, Int.add_sub_cancel, Int.toNat_natCast]
      rw [foldlM_map', this]) (nz, 0)
  rw [← foldlM_flatMap' (fun s c => addCntB (i : Int) c s)
    (fun e : Int × R => (B.row e.1.toNat).map (·.1))] at l1
  obtain ⟨s1, e1, h1⟩ := foldlM_inv (f := fun s c => addCntB (i : Int) c s) (l := mmCols A B i)
    (s := (nz, 0)) (fun pre s => MmCnt B.n i pre s)
    (by
      refine ⟨⟨f, hf, ?_⟩, rfl⟩
      intro k hk
      have := hf2 k hk
      exact ⟨by omega, fun h => absurd h (by omega), fun h => by simp at h⟩)
    (by
      intro pre c suf s' hl hP
      exact mmCnt_step hP (mmCols_range hB (by rw [hl]; simp)))
  obtain ⟨⟨f', hf', hf2'⟩, hcnt⟩ := h1
  obtain ⟨ptr', e3, r3⟩ := hp.wr_nat s1.2 (i := i + 1) (by omega)
  rw [show ((i + 1 : Nat) : Int) = (i : Int) + 1 by omega] at e3
  refine ⟨s1.1, ptr', ?_, ?_, f', hf', fun k hk => by have := (hf2' k hk).1; omega⟩
  · unfold mmCntRow
    simp only [Csr.arrs, hp1, hp2, Option.bind_eq_bind, Option.bind_some]
    simp only [Option.bind_eq_bind, Csr.arrs] at l1
    rw [l1, show (A.row i).flatMap (fun e : Int × R => (B.row e.1.toNat).map (·.1)) = mmCols A B i
      from rfl, e1, Option.bind_some, e3]
    rfl
  · rw [hcnt] at r3
    exact r3

/-- what the counting stage needs of its team -/
structure TeamOk (w m T : Nat) (ord : List Nat) : Prop where
  pos : 0 < T
  ord : ord.Perm (List.range T)
  ov : (m : Int) * T ≤ intMax w

/-- the row pointers of the product -/
theorem mmPtr_ok {w T : Nat} {ord : List Nat} {A B : Csr R} (hth : TeamOk w A.m T ord) (hA : A.WF)
    (hB : B.WF) (hk : A.n = B.m) (g : Nat → Int) :
    ∃ p0 p1 ptr, wr (alloc (A.m + 1) g) 0 0 = some p0 ∧
      inTeam w ord T A.m (List.replicate B.n (-1)) (mmCntRow A.arrs B.arrs) p0 = some p1 ∧
      prefixSum A.m 0 p1 = some ((mmOff A B A.m : Int), ptr) ∧
      Rep ptr (A.m + 1) (fun k => (mmOff A B k : Int)) := by
  have hrep : Rep (alloc (A.m + 1) g) (A.m + 1) g := Rep.of_map
  obtain ⟨p0, e0, r0⟩ := hrep.wr_nat 0 (i := 0) (by omega)
  obtain ⟨p1, e1, f, hf, hf0, hf1⟩ := team_inv (w := w) (T := T) (m := A.m)
    (order := ord) (loc := List.replicate B.n (-1)) (body := mmCntRow A.arrs B.arrs)
    (s := p0) hth.pos hth.ov hth.ord
    (P := fun S ptr => ∃ f, Rep ptr (A.m + 1) f ∧ f 0 = 0 ∧
      ∀ r, r < A.m → S r → f (r + 1) = (mmLen A B r : Int))
    (Q := fun i l => ∃ f, Rep l B.n f ∧ ∀ k, k < B.n → f k < (i : Int))
    ⟨_, r0, by simp, fun _ _ h => h.elim⟩
    (by
      intro i
      refine ⟨fun _ => -1, ⟨by simp, ?_⟩, by intro k _; show (-1 : Int) < i; omega⟩
      intro k hk
      rw [List.getElem?_replicate, if_pos hk])
    (by
      rintro S i s l hi hS ⟨f, hf, hf0, hf1⟩ ⟨q, hq, hq2⟩
      obtain ⟨nz', ptr', h1, h2, h3⟩ := mmCntRow_ok hA hB hk hi hq hq2 hf
      refine ⟨nz', ptr', h1, ⟨_, h2, ?_, ?_⟩, h3⟩
      · rw [Function.update_of_ne (by omega), hf0]
      · intro r hr hs
        by_cases e : r = i
        · subst e; rw [Function.update_self]
        · rw [Function.update_of_ne (by omega)]
          exact hf1 r hr (hs.resolve_right e))
  obtain ⟨p2, e2, r2⟩ := prefixSum_ok hf hf0
  have hlen : ∀ k, k ≤ A.m → ((List.range k).map fun r => f (r + 1)).sum = (mmOff A B k : Int) := by
    intro k
    induction k with
    | zero => intro _; simp [mmOff]
    | succ k ih =>
      intro hk
      rw [List.range_succ, List.map_append, List.sum_append, ih (by omega), mmOff_succ]
      simp [hf1 k (by omega) (by omega)]
  rw [hlen A.m (le_refl _), zero_add] at e2
  refine ⟨p0, p1, p2, e0, e1, e2, r2.congr ?_⟩
  intro k hk; rw [hlen k (by omega), zero_add]

end Verif
