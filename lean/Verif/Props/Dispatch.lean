/-
C36: the choice of a kernel.  C48: the number of threads.
-/
import Verif.Spec.Dispatch
import Verif.Core.Mem
import Mathlib.Data.List.Count

namespace Verif
namespace Props
open Model Spec

/-- the machine's architecture as the library sees it -/
def ArchIs (c : Ctx) (arch : Option Nat) : Prop :=
  match arch with
  | none => c.arch = 0#32
  | some k => k < 32 ∧ c.arch = BitVec.twoPow 32 k

/-- the library always ends up with one architecture, or none -/
theorem C36_arch (b512 : Bool) (has : Nat → Bool) (env : String) (uarch : Nat) :
    ∃ arch, ArchIs (mkCtx b512 has env uarch) arch := by
  have h : ∀ flags, localArch flags uarch ∈ [0#32, 1#32, 2#32, 4#32, 8#32, 16#32] := by
    intro flags
    unfold localArch
    repeat' split
    all_goals simp only [List.mem_cons, List.not_mem_nil, true_or, or_true]
  have h' := h (fun f => decide (f ∈ [2, 3, 4, 5, 6, 7, 8, 10, 11, 12]) && has f)
  simp only [List.mem_cons, List.not_mem_nil, or_false] at h'
  rcases h' with e | e | e | e | e | e
  · exact ⟨none, e⟩
  · exact ⟨some 0, by omega, e⟩
  · exact ⟨some 1, by omega, e⟩
  · exact ⟨some 2, by omega, e⟩
  · exact ⟨some 3, by omega, e⟩
  · exact ⟨some 4, by omega, e⟩

theorem supports_iff (c : Ctx) (isa : Nat) : c.supports isa = true ↔ CanRun c isa := by
  simp [Ctx.supports, CanRun]

theorem bv_ne_zero (x : BitVec 32) : x ≠ 0#32 ↔ ∃ i, i < 32 ∧ x.getLsbD i = true := by
  constructor
  · intro h
    by_contra hn
    push_neg at hn
    apply h
    apply BitVec.eq_of_getLsbD_eq
    intro i hi
    rw [BitVec.getLsbD_zero]
    exact Bool.eq_false_iff.2 (hn i hi)
  · rintro ⟨i, -, h⟩ rfl
    simp at h

theorem countP_split (p q : Nat → Bool) (l : List Nat) :
    l.countP p = l.countP (fun i => p i && q i) + l.countP (fun i => p i && !q i) := by
  induction l with
  | nil => rfl
  | cons a l ih =>
    simp only [List.countP_cons, ih]
    cases p a <;> cases q a <;> simp <;> omega

theorem countP_single (p : Nat → Bool) (k n : Nat) (hk : k < n) :
    (List.range n).countP (fun i => p i && decide (i = k)) = if p k then 1 else 0 := by
  induction n with
  | zero => omega
  | succ n ih =>
    rw [List.range_succ, List.countP_append, List.countP_cons, List.countP_nil]
    by_cases h : k = n
    · subst h
      have : (List.range k).countP (fun i => p i && decide (i = k)) = 0 := by
        rw [List.countP_eq_zero]
        intro a ha
        have := List.mem_range.1 ha
        simp [show a ≠ k by omega]
      rw [this]
      simp
    · rw [ih (by omega)]
      simp [show n ≠ k by omega]

/-- the score of the code is the fit of the specification -/
theorem rowScore_fit {K : Type} {c : Ctx} {arch : Option Nat} (h : ArchIs c arch) (wanted : Nat) (r : Row K) :
    rowScore c wanted r = fit arch wanted r := by
  unfold rowScore fit
  cases arch with
  | none =>
    rw [show c.arch = 0#32 from h]
    simp only [suggested, BitVec.zero_and]
    rw [if_neg (by simp)]
    simp only [Nat.mul_zero, Nat.zero_add, Bool.false_eq_true, if_false, Nat.add_zero]
    split <;> rfl
  | some k =>
    obtain ⟨hk, he⟩ := h
    have hbit : ∀ i, i < 32 → (c.arch &&& r.arch).getLsbD i = (decide (i = k) && r.arch.getLsbD i) := by
      intro i hi
      rw [BitVec.getLsbD_and, he, BitVec.getLsbD_twoPow]
      simp only [hk, decide_true, Bool.true_and]
      congr 1
      simp [eq_comm]
    have h1 : (c.arch &&& r.arch ≠ 0#32) ↔ r.arch.getLsbD k = true := by
      rw [bv_ne_zero]
      constructor
      · rintro ⟨i, hi, hb⟩
        rw [hbit i hi] at hb
        simp only [Bool.and_eq_true, decide_eq_true_eq] at hb
        rw [← hb.1]; exact hb.2
      · intro hb
        exact ⟨k, hk, by rw [hbit k hk]; simp [hb]⟩
    have hcount : popcount r.arch = (if r.arch.getLsbD k then 1 else 0) + others (some k) r := by
      unfold popcount others
      rw [countP_split _ (fun i => decide (i = k)), countP_single _ k 32 hk]
      congr 1
      apply List.countP_congr
      intro i _
      simp only [Bool.and_eq_true, Bool.not_eq_true', decide_eq_false_iff_not, Option.some.injEq]
      exact and_congr_right fun _ => not_congr eq_comm
    by_cases hb : r.arch.getLsbD k = true
    · have h1' : c.arch &&& r.arch ≠ 0 := h1.2 hb
      have h2 : (~~~(c.arch &&& r.arch) &&& r.arch ≠ 0) ↔ others (some k) r ≠ 0 := by
        rw [show (~~~(c.arch &&& r.arch) &&& r.arch ≠ 0) ↔ _ from bv_ne_zero _]
        unfold others
        rw [Ne, List.countP_eq_zero]
        push_neg
        constructor
        · rintro ⟨i, hi, hx⟩
          refine ⟨i, List.mem_range.2 hi, ?_⟩
          rw [BitVec.getLsbD_and, BitVec.getLsbD_not, hbit i hi] at hx
          simp only [hi, decide_true, Bool.true_and, Bool.and_eq_true, Bool.not_eq_true',
            Bool.and_eq_false_iff, decide_eq_false_iff_not] at hx
          simp only [Bool.and_eq_true, hx.2, true_and, Bool.not_eq_true', decide_eq_false_iff_not,
            Option.some.injEq]
          rintro rfl
          rcases hx.1 with h | h
          · exact h rfl
          · rw [hx.2] at h; cases h
        · rintro ⟨i, hi, hx⟩
          have hi := List.mem_range.1 hi
          refine ⟨i, hi, ?_⟩
          simp only [Bool.and_eq_true, Bool.not_eq_true', decide_eq_false_iff_not, Option.some.injEq] at hx
          rw [BitVec.getLsbD_and, BitVec.getLsbD_not, hbit i hi]
          simp [hi, hx.1, show i ≠ k from fun h => hx.2 h.symm]
      rw [if_pos hb] at hcount
      simp only [suggested, hb, if_true]
      rw [if_pos h1', hcount]
      by_cases ho : others (some k) r = 0
      · rw [if_neg (fun h => (h2.1 h) ho), ho]
        split <;> simp
      · rw [if_pos (h2.2 ho)]
        split <;> simp <;> omega
    · have h1' : ¬ (c.arch &&& r.arch ≠ 0) := fun h => hb (h1.1 h)
      dsimp only
      rw [if_neg h1']
      simp only [suggested, hb, Nat.mul_zero, Nat.zero_add, Bool.false_eq_true, if_false, Nat.add_zero]
      split <;> rfl

section
variable {K : Type} {c : Ctx} {h : IsaHint} {tbl : List (Row K)} {best : Option K} {kid b e : Int}

/-- **C36, a kernel asked for.**  A request for kernel `kid ≥ 0` of rows `b … e-1` gives that kernel if the
rows are rows of the table, `kid` is one of them and the machine can run it, and "invalid kid" otherwise;
never another kernel. -/
theorem C36_kid (hk : 0 ≤ kid) :
    ∃ res, oracle c h tbl best kid b e = some res ∧
      ∀ k, res = some k ↔ 0 ≤ b ∧ e ≤ tbl.length ∧ b + kid < e ∧
        ∃ r, tbl[(b + kid).toNat]? = some r ∧ CanRun c r.flag ∧ r.kernel = some k := by
  unfold oracle
  rw [if_pos hk]
  by_cases hc : kid ≥ e - b ∨ b ≥ e ∨ ¬ (0 ≤ b ∧ b ≤ tbl.length - 1) ∨ ¬ (0 ≤ e ∧ e ≤ tbl.length)
  · rw [if_pos hc]
    refine ⟨none, rfl, fun k => ⟨fun h => Option.noConfusion rfl (heq_of_eq h), fun hk' => ?_⟩⟩
    obtain ⟨h1, h2, h3, -⟩ := hk'
    exfalso
    omega
  · rw [if_neg hc]
    have hr : (b + kid).toNat < tbl.length := by omega
    rw [rd_getElem (by omega) hr]
    simp only [Option.bind_eq_bind, Option.bind_some]
    have hget : tbl[(b + kid).toNat]? = some tbl[(b + kid).toNat] := List.getElem?_eq_getElem hr
    by_cases hs : c.supports tbl[(b + kid).toNat].flag = true
    · rw [if_pos hs]
      refine ⟨_, rfl, fun k => ⟨fun hk' => ⟨by omega, by omega, by omega, _, hget, (supports_iff _ _).1 hs, hk'⟩,
        fun hk' => ?_⟩⟩
      obtain ⟨-, -, -, r, h1, -, h2⟩ := hk'
      rw [hget] at h1
      cases h1
      exact h2
    · rw [if_neg hs]
      refine ⟨none, rfl, fun k => ⟨fun h => Option.noConfusion rfl (heq_of_eq h), fun hk' => ?_⟩⟩
      obtain ⟨-, -, -, r, h1, h2, -⟩ := hk'
      rw [hget] at h1
      cases h1
      exact absurd ((supports_iff _ _).2 h2) hs

/-- **C36, automatic choice.**  With no preference for a kernel and rows inside the table: if some row can run
on the machine, the choice is the kernel of the best row that can; if none can, "invalid kid". -/
theorem C36_auto {arch : Option Nat} (ha : ArchIs c arch) {b e : Nat} (hbe : e ≤ tbl.length) (hk : kid < 0) :
    ∃ res, oracle c h tbl none kid b e = some res ∧
      ((∃ k r, Best c arch h.cur tbl b e k r ∧ res = r.kernel) ∨
       ((∀ j r, b ≤ j → j < e → tbl[j]? = some r → ¬ CanRun c r.flag) ∧ res = none)) := by
  unfold oracle
  rw [if_neg (by omega), if_pos (.inl rfl)]
  by_cases hlt : b < e
  · obtain ⟨s, e1, h1⟩ := forC_inv (σ := Nat × Option K) (lo := b) (hi := e) (f := oracleBody c h.cur tbl) (s := (0, none))
      (P := fun i s => (∃ k r, Best c arch h.cur tbl b i.toNat k r ∧ s.2 = r.kernel ∧ s.1 = fit arch h.cur r) ∨
        ((∀ j r, b ≤ j → (j : Int) < i → tbl[j]? = some r → ¬ CanRun c r.flag) ∧ s = (0, none)))
      (by omega) (.inr ⟨fun j r h1 h2 => by omega, rfl⟩) (by
        intro i s hi1 hi2 hP
        have hil : i.toNat < tbl.length := by omega
        have hget : tbl[i.toNat]? = some tbl[i.toNat] := List.getElem?_eq_getElem hil
        unfold oracleBody
        rw [rd_getElem (by omega) hil]
        simp only [Option.bind_eq_bind, Option.bind_some]
        have hsucc : (i + 1).toNat = i.toNat + 1 := by omega
        by_cases hs : c.supports tbl[i.toNat].flag = true
        · rw [if_pos hs, rowScore_fit ha]
          have hrun := (supports_iff _ _).1 hs
          rcases hP with ⟨k, r, hB, h2, h3⟩ | ⟨hn, rfl⟩
          · by_cases hle : s.1 ≤ fit arch h.cur tbl[i.toNat]
            · rw [if_pos hle]
              refine ⟨_, rfl, .inl ⟨i.toNat, _, ⟨hget, by omega, hrun, ?_⟩, rfl, rfl⟩⟩
              intro j r' j1 j2 j3 j4
              by_cases hj : j = i.toNat
              · subst hj
                rw [hget] at j3; cases j3
                exact ⟨Nat.le_refl _, fun h => by omega⟩
              · have := (hB.best j r' j1 (by omega) j3 j4).1
                exact ⟨by omega, fun h => by omega⟩
            · rw [if_neg hle]
              refine ⟨_, rfl, .inl ⟨k, r, ⟨hB.row, by have := hB.range; omega, hB.run, ?_⟩, h2, h3⟩⟩
              intro j r' j1 j2 j3 j4
              by_cases hj : j = i.toNat
              · subst hj
                rw [hget] at j3; cases j3
                exact ⟨by omega, fun _ => by omega⟩
              · exact hB.best j r' j1 (by omega) j3 j4
          · rw [if_pos (Nat.zero_le _)]
            refine ⟨_, rfl, .inl ⟨i.toNat, _, ⟨hget, by omega, hrun, ?_⟩, rfl, rfl⟩⟩
            intro j r' j1 j2 j3 j4
            by_cases hj : j = i.toNat
            · subst hj
              rw [hget] at j3; cases j3
              exact ⟨Nat.le_refl _, fun h => by omega⟩
            · exact absurd j4 (hn j r' j1 (by omega) j3)
        · rw [if_neg hs]
          have hrun : ¬ CanRun c tbl[i.toNat].flag := fun h => hs ((supports_iff _ _).2 h)
          refine ⟨_, rfl, ?_⟩
          rcases hP with ⟨k, r, hB, h2, h3⟩ | ⟨hn, rfl⟩
          · refine .inl ⟨k, r, ⟨hB.row, by have := hB.range; omega, hB.run, ?_⟩, h2, h3⟩
            intro j r' j1 j2 j3 j4
            by_cases hj : j = i.toNat
            · subst hj
              rw [hget] at j3; cases j3
              exact absurd j4 hrun
            · exact hB.best j r' j1 (by omega) j3 j4
          · refine .inr ⟨fun j r j1 j2 j3 => ?_, rfl⟩
            by_cases hj : j = i.toNat
            · subst hj
              rw [hget] at j3; cases j3
              exact hrun
            · exact hn j r j1 (by omega) j3)
    rw [e1]
    simp only [Option.bind_eq_bind, Option.bind_some]
    refine ⟨s.2, rfl, ?_⟩
    rcases h1 with ⟨k, r, hB, h2, -⟩ | ⟨hn, rfl⟩
    · exact .inl ⟨k, r, by simpa using hB, h2⟩
    · exact .inr ⟨fun j r h1 h2 => hn j r h1 (by omega), rfl⟩
  · rw [forC_ge (by omega)]
    exact ⟨none, rfl, .inr ⟨fun j r h1 h2 => by omega, rfl⟩⟩

/-- **C36, supported.**  Whatever is asked for, a kernel that is returned is one of the table, in the rows
asked for, whose instruction set the machine has. -/
theorem C36_supported {arch : Option Nat} (ha : ArchIs c arch) {b e : Nat} (hbe : e ≤ tbl.length) {k : K}
    (hr : oracle c h tbl none kid b e = some (some k)) :
    ∃ i r, b ≤ i ∧ i < e ∧ tbl[i]? = some r ∧ r.kernel = some k ∧ CanRun c r.flag := by
  by_cases hk : 0 ≤ kid
  · obtain ⟨res, e1, h1⟩ := C36_kid (c := c) (h := h) (tbl := tbl) (best := none) (b := b) (e := e) hk
    rw [e1] at hr
    cases hr
    obtain ⟨h2, h3, h4, r, h5, h6, h7⟩ := (h1 k).1 rfl
    exact ⟨_, r, by omega, by omega, h5, h7, h6⟩
  · obtain ⟨res, e1, h1⟩ := C36_auto (c := c) (h := h) (kid := kid) ha hbe (b := b) (by omega)
    rw [e1] at hr
    cases hr
    rcases h1 with ⟨i, r, hB, h2⟩ | ⟨-, h2⟩
    · exact ⟨i, r, hB.range.1, hB.range.2, hB.row, h2.symm, hB.run⟩
    · cases h2

/-- **C36, automatic choice succeeds** as soon as one row can run, provided rows without a kernel are marked
as rows no machine can run (what ORL does). -/
theorem C36_auto_succeeds {arch : Option Nat} (ha : ArchIs c arch) {b e : Nat} (hbe : e ≤ tbl.length)
    (hk : kid < 0) (hn : ∀ r ∈ tbl, r.kernel = none → ¬ CanRun c r.flag)
    (hex : ∃ j r, b ≤ j ∧ j < e ∧ tbl[j]? = some r ∧ CanRun c r.flag) :
    ∃ k, oracle c h tbl none kid b e = some (some k) := by
  obtain ⟨res, e1, h1⟩ := C36_auto (c := c) (h := h) (kid := kid) ha hbe (b := b) hk
  rcases h1 with ⟨i, r, hB, h2⟩ | ⟨h2, -⟩
  · cases hr : r.kernel with
    | none => exact absurd hB.run (hn r (List.mem_of_getElem? hB.row) hr)
    | some k => exact ⟨k, by rw [e1, h2, hr]⟩
  · obtain ⟨j, r, j1, j2, j3, j4⟩ := hex
    exact absurd j4 (h2 j r j1 j2 j3)

end

/-! ### the library's tables -/

/-- a machine as the library sees it: what is not looked up is off, AVX512VL and AVX512F machines have AVX2 -/
structure Machine (c : Ctx) : Prop where
  arch : ∃ a, ArchIs c a
  unset : c.flags 0 = false
  vl : c.flags 5 = true → c.flags 2 = true

theorem forall_rows {K : Type} {P : Row K → Prop} {a b c d : Row K} (h1 : P a) (h2 : P b) (h3 : P c) (h4 : P d) :
    ∀ r ∈ [a, b, c, d], P r := by
  intro r hr
  simp only [List.mem_cons, List.not_mem_nil, or_false] at hr
  rcases hr with rfl | rfl | rfl | rfl <;> assumption

/-- what a row must satisfy: no kernel only if it cannot run, and what it needs it declares -/
def KRowOk (c : Ctx) (r : Row Kern) : Prop :=
  (r.kernel = none → ¬ CanRun c r.flag) ∧ ∀ k, r.kernel = some k → CanRun c r.flag → CanRun c k.need

theorem orl_ok {c : Ctx} (h0 : c.flags 0 = false) {b : Bool} {r : Row Kern} (h : KRowOk c r) : KRowOk c (orl b r) := by
  unfold orl
  cases b with
  | true => exact h
  | false => exact ⟨fun _ => by simp [CanRun, h0], fun k hk => by cases hk⟩

theorem vanilla_ok {c : Ctx} (hc : Machine c) (b : Bool) : ∀ r ∈ tblVanilla b, KRowOk c r :=
  forall_rows ⟨nofun, fun k hk h => by cases hk; exact h⟩ ⟨nofun, fun k hk h => by cases hk; exact h⟩
    ⟨nofun, fun k hk h => by cases hk; exact h⟩ (orl_ok hc.unset ⟨nofun, fun k hk h => by cases hk; exact h⟩)

theorem vl_ok {c : Ctx} (hc : Machine c) (b : Bool) (d : Nat) {n : Nat} (hn : n = 5 ∨ n = 2) :
    ∀ r ∈ tblVL b d n, KRowOk c r :=
  forall_rows ⟨nofun, fun k hk h => by cases hk; exact h⟩ ⟨nofun, fun k hk h => by cases hk; exact h⟩
    (orl_ok hc.unset ⟨nofun, fun k hk h => by
      cases hk
      rcases hn with rfl | rfl
      · exact h
      · rcases h with h | h
        · cases h
        · exact .inr (hc.vl h)⟩)
    (orl_ok hc.unset ⟨nofun, fun k hk h => by cases hk; exact h⟩)

theorem trsv_ok {c : Ctx} (hc : Machine c) (b : Bool) : ∀ r ∈ tblTrsv b, KRowOk c r := by
  intro r hr
  unfold tblTrsv at hr
  obtain ⟨d, -, hd⟩ := List.mem_flatMap.1 hr
  exact vl_ok hc b d (.inl rfl) r hd

/-- **C36, tables of the library with a reference kernel** (level 1 operations, general products, trsv,
csrmm): on every machine and for every preference, what is returned can run on the machine, instructions of
the kernel included. -/
theorem C36_tables {c : Ctx} (hc : Machine c) (h : IsaHint) (kid : Int) {tbl : List (Row Kern)}
    (ht : tbl = tblVanilla c.build512 ∨ (∃ d, tbl = tblVL c.build512 d 5) ∨ (∃ d, tbl = tblVL c.build512 d 2) ∨
      tbl = tblTrsv c.build512) {b e : Nat} (hbe : e ≤ tbl.length) {k : Kern}
    (hr : oracle c h tbl none kid b e = some (some k)) : CanRun c k.need := by
  have hok : ∀ r ∈ tbl, KRowOk c r := by
    rcases ht with rfl | ⟨d, rfl⟩ | ⟨d, rfl⟩ | rfl
    · exact vanilla_ok hc _
    · exact vl_ok hc _ d (.inl rfl)
    · exact vl_ok hc _ d (.inr rfl)
    · exact trsv_ok hc _
  obtain ⟨a, ha⟩ := hc.arch
  obtain ⟨i, r, -, -, h1, h2, h3⟩ := C36_supported ha hbe hr
  exact (hok r (List.mem_of_getElem? h1)).2 k h2 h3

/-- **C36, automatic choice never fails** on the library's tables, those without a reference kernel
included. -/
theorem C36_tables_auto {c : Ctx} (hc : Machine c) (h : IsaHint) {tbl : List (Row Kern)}
    (ht : tbl = tblVanilla c.build512 ∨ (∃ d n, (n = 5 ∨ n = 2) ∧ tbl = tblVL c.build512 d n) ∨
      tbl = tblNoRef c.build512) : ∃ k, oracle c h tbl none (-1) 0 tbl.length = some (some k) := by
  obtain ⟨a, ha⟩ := hc.arch
  have hfirst : ∃ r, tbl[0]? = some r ∧ r.flag = 1 := by
    rcases ht with rfl | ⟨d, n, -, rfl⟩ | rfl <;> exact ⟨_, rfl, rfl⟩
  obtain ⟨r, h1, h2⟩ := hfirst
  refine C36_auto_succeeds (b := 0) ha (Nat.le_refl _) (by omega) (fun r hr hk => ?_)
    ⟨0, r, by omega, ?_, h1, .inl h2⟩
  · rcases ht with rfl | ⟨d, n, hn, rfl⟩ | rfl
    · exact (vanilla_ok hc _ r hr).1 hk
    · exact (vl_ok hc _ d hn r hr).1 hk
    · refine (forall_rows (P := fun r : Row Kern => r.kernel = none → ¬ CanRun c r.flag) nofun nofun nofun ?_ :
        ∀ r ∈ tblNoRef c.build512, _) r hr hk
      cases c.build512 with
      | true => exact nofun
      | false => intro _; simp [orl, CanRun, hc.unset]
  · obtain ⟨h3, -⟩ := List.getElem?_eq_some_iff.1 h1
    exact h3

/-- **F56.**  The tables of the transposed, symmetric and Hermitian products declare a 256-bit kernel as
GENERIC: on a machine without AVX2 it is chosen and run. -/
theorem C36_noref_counterexample :
    let c := mkCtx false (fun _ => false) "" 0
    oracle c (.init c) (tblNoRef false) none (-1) 0 4 = some (some ⟨1, 0, 2⟩) ∧ ¬ CanRun c 2 := by
  refine ⟨by decide +kernel, ?_⟩
  simp [CanRun, mkCtx]

theorem forC_04 {σ : Type} (f : Int → σ → Option σ) (s : σ) :
    forC 0 4 f s = (f 0 s).bind fun s => (f 1 s).bind fun s => (f 2 s).bind fun s => (f 3 s).bind some := by
  have e1 : ∀ s, forC 1 4 f s = (f 1 s).bind (forC 2 4 f) := fun s => forC_lt (by decide) f s
  have e2 : ∀ s, forC 2 4 f s = (f 2 s).bind (forC 3 4 f) := fun s => forC_lt (by decide) f s
  have e3 : ∀ s, forC 3 4 f s = (f 3 s).bind (forC 4 4 f) := fun s => forC_lt (by decide) f s
  have e4 : ∀ s, forC 4 4 f s = some s := fun s => forC_ge (by decide) f s
  rw [forC_lt (by omega)]
  simp only [Int.zero_add, funext e4, funext e3, funext e2, funext e1]

/-- **C36, which kernel.**  On the level-1 and general product tables the automatic choice is: the kernel of the
preferred instruction set if the machine has it, otherwise the widest one the machine and the build have. -/
theorem C36_choice {c : Ctx} (hc : Machine c) (h : IsaHint) :
    oracle c h (tblVanilla c.build512) none (-1) 0 4 = some (some
      (if h.cur = 3 ∧ c.build512 = true ∧ c.flags 3 = true then ⟨3, 0, 3⟩
       else if h.cur = 2 ∧ c.flags 2 = true then ⟨1, 0, 2⟩
       else if h.cur = 1 then ⟨0, 0, 1⟩
       else if c.build512 = true ∧ c.flags 3 = true then ⟨3, 0, 3⟩
       else if c.flags 2 = true then ⟨1, 0, 2⟩
       else ⟨0, 0, 1⟩)) := by
  obtain ⟨a, ha⟩ := hc.arch
  obtain ⟨s, t, hst, hts, hs⟩ : ∃ s t : Nat, s ≤ t ∧ ¬ t ≤ s ∧ ∀ r : Row Kern, r.arch = archAll →
      rowScore c h.cur r = if h.cur = r.flag then t else s := by
    refine ⟨fit a 0 (⟨none, 1, archAll⟩ : Row Kern), 100 + fit a 0 (⟨none, 1, archAll⟩ : Row Kern), by omega,
      by omega, fun r hr => ?_⟩
    rw [rowScore_fit ha]
    unfold fit suggested others
    rw [hr]
    split <;> simp
  have hu := hc.unset
  unfold oracle
  rw [if_neg (by omega), if_pos (.inl rfl)]
  rw [forC_04]
  unfold oracleBody tblVanilla
  cases hb : c.build512 <;> cases h2 : c.flags 2 <;> cases h3 : c.flags 3 <;>
    simp [rd, orl, Ctx.supports, h2, h3, hu, hs] <;>
    (repeat' split) <;> first | rfl | omega | (simp_all; done) |
      (have hn : (t ≤ s) = False := eq_false hts
       simp_all [Nat.not_le.2]; done) | (simp_all [Nat.not_le.2])

/-- **C36, trsv.**  For each of the eight operations, the kernel returned is one for that operation, can run
on the machine, and automatic choice always finds one; a kernel asked for by number is that one. -/
theorem C36_trsv {c : Ctx} (hc : Machine c) (h : IsaHint) {doid : Nat} (hd : 12 ≤ doid) (hd' : doid ≤ 19)
    (kid : Int) :
    (∃ k, trsvSelect c h doid kid = some (.ok k) ∧ k.doid = doid ∧ CanRun c k.need ∧
      (0 ≤ kid → (k.id : Int) = kid)) ∨
    (0 ≤ kid ∧ trsvSelect c h doid kid = some (.error .invalidKid)) := by
  have hlen : (tblTrsv c.build512).length = 32 := by unfold tblTrsv tblVL; rfl
  obtain ⟨o, ho⟩ : ∃ o : Nat, doid = o + 12 := ⟨doid - 12, by omega⟩
  have ho7 : o ≤ 7 := by omega
  have hb : ((doid : Int) - 12) * 4 = ((4 * o : Nat) : Int) := by subst ho; push_cast; omega
  have he : ((doid : Int) - 12) * 4 + 4 = ((4 * o + 4 : Nat) : Int) := by rw [hb]; push_cast; omega
  -- the rows of the operation
  have hrow : ∀ j, j < 4 → (tblTrsv c.build512)[4 * o + j]? = (tblVL c.build512 doid 5)[j]? := by
    intro j hj
    subst ho
    have h1 : o = 0 ∨ o = 1 ∨ o = 2 ∨ o = 3 ∨ o = 4 ∨ o = 5 ∨ o = 6 ∨ o = 7 := by omega
    have h2 : j = 0 ∨ j = 1 ∨ j = 2 ∨ j = 3 := by omega
    rcases h1 with rfl | rfl | rfl | rfl | rfl | rfl | rfl | rfl <;>
      rcases h2 with rfl | rfl | rfl | rfl <;> rfl
  have hdoid : ∀ j r k, j < 4 → (tblVL c.build512 doid 5)[j]? = some r → r.kernel = some k →
      k.doid = doid ∧ k.id = j := by
    intro j r k hj hr hk
    have h2 : j = 0 ∨ j = 1 ∨ j = 2 ∨ j = 3 := by omega
    rcases h2 with rfl | rfl | rfl | rfl
    · cases hr; cases hk; exact ⟨rfl, rfl⟩
    · cases hr; cases hk; exact ⟨rfl, rfl⟩
    · cases hr
      cases hb : c.build512 <;> rw [hb] at hk <;> cases hk
      exact ⟨rfl, rfl⟩
    · cases hr
      cases hb : c.build512 <;> rw [hb] at hk <;> cases hk
      exact ⟨rfl, rfl⟩
  obtain ⟨a, ha⟩ := hc.arch
  have hle : 4 * o + 4 ≤ (tblTrsv c.build512).length := by rw [hlen]; omega
  have hget : ∀ k, oracle c h (tblTrsv c.build512) none kid ((4 * o : Nat) : Int) ((4 * o + 4 : Nat) : Int)
      = some (some k) → trsvSelect c h doid kid = some (.ok k) ∧ k.doid = doid ∧ CanRun c k.need := by
    intro k hk
    refine ⟨?_, ?_, C36_tables hc h kid (.inr (.inr (.inr rfl))) hle hk⟩
    · unfold trsvSelect
      rw [if_neg (by omega), he, hb, hk]
      rfl
    · obtain ⟨i, r, h1, h2, h3, h4, -⟩ := C36_supported ha hle hk
      obtain ⟨j, rfl⟩ : ∃ j, i = 4 * o + j := ⟨i - 4 * o, by omega⟩
      rw [hrow j (by omega)] at h3
      exact (hdoid j r k (by omega) h3 h4).1
  by_cases hk : 0 ≤ kid
  · obtain ⟨res, e1, h1⟩ := C36_kid (c := c) (h := h) (tbl := tblTrsv c.build512) (best := none)
      (b := ((4 * o : Nat) : Int)) (e := ((4 * o + 4 : Nat) : Int)) hk
    cases res with
    | none =>
      right
      refine ⟨hk, ?_⟩
      unfold trsvSelect
      rw [if_neg (by omega), he, hb, e1]
      rfl
    | some k =>
      left
      obtain ⟨g1, g2, g3⟩ := hget k e1
      refine ⟨k, g1, g2, g3, fun _ => ?_⟩
      obtain ⟨-, -, h4, r, h5, -, h7⟩ := (h1 k).1 rfl
      obtain ⟨j, rfl⟩ : ∃ j : Nat, kid = j := ⟨kid.toNat, by omega⟩
      rw [show (((4 * o : Nat) : Int) + (j : Int)).toNat = 4 * o + j by omega, hrow j (by omega)] at h5
      rw [(hdoid j r k (by omega) h5 h7).2]
  · left
    obtain ⟨k, e1⟩ := C36_auto_succeeds (c := c) (h := h) (kid := kid) (tbl := tblTrsv c.build512)
      (b := 4 * o) (e := 4 * o + 4) ha hle (by omega) (fun r hr => (trsv_ok hc _ r hr).1)
      ⟨4 * o + 0, _, by omega, by omega, by rw [hrow 0 (by omega)]; rfl, .inl rfl⟩
    obtain ⟨g1, g2, g3⟩ := hget k e1
    exact ⟨k, g1, g2, g3, fun h => absurd h hk⟩

/-! ### preferences over a history -/

/-- a thread's calls: a preference, or a call of an operation with a table -/
inductive PCall (K : Type) where
  | enable (s : String)
  | call (tbl : List (Row K)) (kid : Int) (b e : Nat)

/-- a thread's state: the hint and the caches of the dispatchers, one per operation -/
structure PState (K : Type) where
  hint : IsaHint
  cache : List (Row K) → Option K

/-- one call; the answer is the kernel chosen.  The cache of the operation is handed to the Oracle by value
(cntx_dispatcher.hpp:304) and nothing writes it. -/
def pstep {K : Type} (c : Ctx) (env : Option String) (s : PState K) : PCall K → Option (Option K × PState K)
  | .enable p => (enableInstructions c env s.hint (some p)).map fun r => (none, { s with hint := r.2 })
  | .call tbl kid b e => (oracle c s.hint tbl (s.cache tbl) kid b e).map fun k => (k, s)

/-- a history, oldest call first -/
def prun {K : Type} (c : Ctx) (env : Option String) (s : PState K) : List (PCall K) → Option (List (Option K) × PState K)
  | [] => some ([], s)
  | p :: l => do
    let r ← pstep c env s p
    let q ← prun c env r.2 l
    some (r.1 :: q.1, q.2)

/-- the strings handed to enable_instructions, latest first -/
def prefs {K : Type} : List (PCall K) → List String → List String
  | [], acc => acc
  | .enable s :: l, acc => prefs l (s :: acc)
  | .call _ _ _ _ :: l, acc => prefs l acc

/-- the state of a thread that has not called anything: zero-initialised caches, hint from the context -/
def PState.start {K : Type} (c : Ctx) : PState K := ⟨.init c, fun _ => none⟩

/-- the answers expectedK: for each operation, what the Oracle gives without cache for the preference in force -/
def expectedK {K : Type} (c : Ctx) (acc : List String) : List (PCall K) → List (Option (Option K))
  | [] => []
  | .enable s :: l => some none :: expectedK c (s :: acc) l
  | .call tbl kid b e :: l =>
    oracle c ⟨0, inForce c c.hint acc⟩ tbl none kid b e :: expectedK c acc l

theorem enable_spec (c : Ctx) (env : Option String) (h : IsaHint) (s : String) :
    ∃ st h', enableInstructions c env h (some s) = some (st, h') ∧
      (st = .success ∧ (∃ p, preference c s = some p ∧ h'.cur = p) ∨
       st = .invalidValue ∧ preference c s = none ∧ h' = h) := by
  have he : ("" : String).toUpper = "" := by decide +kernel
  have hsplit : s.toUpper = "" ∨ s.toUpper = "ENV" ∨ s.toUpper = "GENERIC" ∨ s.toUpper = "AVX2" ∨
      s.toUpper = "AVX512" ∨ (s.toUpper ≠ "" ∧ s.toUpper ≠ "ENV" ∧ s.toUpper ≠ "GENERIC" ∧
        s.toUpper ≠ "AVX2" ∧ s.toUpper ≠ "AVX512") := by tauto
  have henv : (envGetVar false env "").toUpper = "" := by
    unfold envGetVar
    cases env with
    | none => exact he
    | some => exact he
  unfold enableInstructions preference
  dsimp only
  by_cases hs : s = ""
  · subst hs
    rw [if_neg (by simp), he]
    exact ⟨_, _, rfl, .inl ⟨rfl, 0, rfl, rfl⟩⟩
  · rw [if_pos hs]
    rcases hsplit with h1 | h1 | h1 | h1 | h1 | ⟨h1, h2, h3, h4, h5⟩
    · rw [h1]
      exact ⟨_, _, rfl, .inl ⟨rfl, 0, rfl, rfl⟩⟩
    · rw [h1, if_pos rfl, henv]
      exact ⟨_, _, rfl, .inl ⟨rfl, 0, rfl, rfl⟩⟩
    · rw [h1]
      exact ⟨_, _, rfl, .inl ⟨rfl, 1, rfl, rfl⟩⟩
    · rw [h1]
      cases h2 : c.flags 2
      · exact ⟨_, _, rfl, .inl ⟨rfl, 1, rfl, rfl⟩⟩
      · exact ⟨_, _, rfl, .inl ⟨rfl, 2, rfl, rfl⟩⟩
    · rw [h1]
      cases h3 : c.flags 3
      · cases h2 : c.flags 2
        · exact ⟨_, _, rfl, .inl ⟨rfl, 1, rfl, rfl⟩⟩
        · exact ⟨_, _, rfl, .inl ⟨rfl, 2, rfl, rfl⟩⟩
      · exact ⟨_, _, rfl, .inl ⟨rfl, 3, rfl, rfl⟩⟩
    · refine ⟨.invalidValue, h, ?_, .inr ⟨rfl, ?_, rfl⟩⟩
      · rw [if_neg h2, if_neg h1, if_neg (by tauto), if_neg (by tauto), if_neg (by tauto)]
      · split <;> first | rfl | (exfalso; tauto)

theorem oracle_fresh {K : Type} {c : Ctx} {h h' : IsaHint} (he : h.cur = h'.cur) (tbl : List (Row K)) (kid b e : Int) :
    oracle c h tbl none kid b e = oracle c h' tbl none kid b e := by
  unfold oracle
  rw [he]
  rfl

/-- **C36, preferences.**  After any sequence of calls of aoclsparse_enable_instructions and of operations, in
which nothing undefined happens, each operation got the kernel the Oracle chooses for the preference in force at
that time: the one of the latest call with a valid string, or the one of the environment. -/
theorem C36_history {K : Type} (c : Ctx) (env : Option String) (l : List (PCall K))
    {ans : List (Option K)} {s' : PState K} (h : prun c env (.start c) l = some (ans, s')) :
    ans.map some = expectedK c [] l ∧ s'.hint.cur = inForce c c.hint (prefs l []) := by
  have key : ∀ (l : List (PCall K)) (acc : List String) (s : PState K) (ans : List (Option K)) (s' : PState K),
      s.hint.cur = inForce c c.hint acc → (∀ t, s.cache t = none) → prun c env s l = some (ans, s') →
      ans.map some = expectedK c acc l ∧ s'.hint.cur = inForce c c.hint (prefs l acc) := by
    intro l
    induction l with
    | nil => intro acc s ans s' h1 _ h; cases h; exact ⟨rfl, h1⟩
    | cons p l ih =>
      intro acc s ans s' h1 h2 h
      simp only [prun, Option.bind_eq_bind, Option.bind_eq_some_iff] at h
      obtain ⟨⟨k, s1⟩, e1, ⟨ks, s2⟩, e2, e3⟩ := h
      cases e3
      cases p with
      | enable p =>
        simp only [pstep, Option.map_eq_some_iff, Prod.mk.injEq] at e1
        obtain ⟨⟨st, hh⟩, e1, rfl, rfl⟩ := e1
        have : hh.cur = inForce c c.hint (p :: acc) := by
          obtain ⟨st', h', e4, h5⟩ := enable_spec c env s.hint p
          rw [e1] at e4
          cases e4
          rcases h5 with ⟨-, q, h6, h7⟩ | ⟨-, h6, rfl⟩
          · rw [inForce, h6]; exact h7
          · rw [inForce, h6]; exact h1
        obtain ⟨g1, g2⟩ := ih (p :: acc) { s with hint := hh } ks s2 this h2 e2
        exact ⟨by simp only [List.map_cons, expectedK, g1], g2⟩
      | call tbl kid b e =>
        simp only [pstep, Option.map_eq_some_iff, Prod.mk.injEq] at e1
        obtain ⟨k', e1, rfl, rfl⟩ := e1
        obtain ⟨g1, g2⟩ := ih acc s ks s2 h1 h2 e2
        refine ⟨?_, g2⟩
        simp only [List.map_cons, expectedK, g1]
        rw [← e1, h2 tbl, oracle_fresh (h' := ⟨0, inForce c c.hint acc⟩) h1]
  exact key l [] (.start c) ans s' rfl (fun _ => rfl) h

/-- **C36, the preference in force can run**: it is never an ISA the machine lacks, and GENERIC, AVX2 or AVX512F
only. -/
theorem C36_preference_runs (b512 : Bool) (has : Nat → Bool) (env : String) (uarch : Nat) (l : List String) :
    let c := mkCtx b512 has env uarch
    inForce c c.hint l = 0 ∨ (inForce c c.hint l ≤ 3 ∧ CanRun c (inForce c c.hint l)) := by
  intro c
  induction l with
  | nil =>
    show c.hint = 0 ∨ _
    have : c.hint = envHint c.flags env.toUpper := rfl
    unfold inForce
    rw [this]
    unfold envHint CanRun
    repeat' split
    all_goals simp_all
  | cons s l ih =>
    unfold inForce
    unfold preference CanRun
    cases h2 : c.flags 2 <;> cases h3 : c.flags 3 <;> split <;> simp_all [CanRun]

/-- **F57.**  aoclsparse_enable_instructions("ENV") does not read the environment variable, whatever it holds. -/
theorem C36_env_counterexample :
    let c := mkCtx true (fun _ => true) "" 4
    (enableInstructions c (some "AVX2") (.init c) (some "ENV")).map (fun r => (r.1, r.2.cur)) = some (.success, 0) ∧
    (enableInstructions c none (.init c) (some "AVX2")).map (fun r => (r.1, r.2.cur)) = some (.success, 2) := by
  decide +kernel

/-- the cache, were it ever filled, would be wrong after the same preference is set twice: the Oracle then takes
the cached kernel although it was chosen for another preference -/
theorem C36_cache_stale :
    let c := mkCtx true (fun _ => true) "" 4
    let h := ((IsaHint.init c).set 2).set 2
    oracle c h (tblVanilla true) (some ⟨3, 0, 3⟩) (-1) 0 4 = some (some ⟨3, 0, 3⟩) ∧
    oracle c h (tblVanilla true) none (-1) 0 4 = some (some ⟨1, 0, 2⟩) := by
  decide +kernel

/-! ### get_supported -/

/-- **C36, get_supported**: the best of a list of ISAs that the machine and the build support, UNSET if none -/
theorem C36_getSupported (c : Ctx) (l : List Nat) :
    (supportedOf c l = 0 ∨ (supportedOf c l ∈ l ∧ CanRun c (supportedOf c l) ∧
      (2 < supportedOf c l → c.build512 = true))) ∧
    ∀ i ∈ l, CanRun c i → (2 < i → c.build512 = true) → i ≤ supportedOf c l := by
  have key : ∀ (l done : List Nat) (s : Nat × Nat), s.1 = s.2 →
      (s.1 = 0 ∨ (s.1 ∈ done ∧ CanRun c s.1 ∧ (2 < s.1 → c.build512 = true))) →
      (∀ i ∈ done, CanRun c i → (2 < i → c.build512 = true) → i ≤ s.1) →
      (let r := (l.foldl (supStep c) s).1
       (r = 0 ∨ (r ∈ done ++ l ∧ CanRun c r ∧ (2 < r → c.build512 = true))) ∧
       ∀ i ∈ done ++ l, CanRun c i → (2 < i → c.build512 = true) → i ≤ r) := by
    intro l
    induction l with
    | nil => intro done s _ h1 h2; simpa using ⟨h1, h2⟩
    | cons a l ih =>
      intro done s h0 h1 h2
      have hstep : (supStep c s a).1 = (supStep c s a).2 ∧
          ((supStep c s a).1 = 0 ∨ ((supStep c s a).1 ∈ done ++ [a] ∧ CanRun c (supStep c s a).1 ∧
            (2 < (supStep c s a).1 → c.build512 = true))) ∧
          ∀ i ∈ done ++ [a], CanRun c i → (2 < i → c.build512 = true) → i ≤ (supStep c s a).1 := by
        unfold supStep
        have hold : s.1 = 0 ∨ (s.1 ∈ done ++ [a] ∧ CanRun c s.1 ∧ (2 < s.1 → c.build512 = true)) :=
          h1.imp id fun h => ⟨List.mem_append_left _ h.1, h.2⟩
        by_cases hs : c.supports a = true
        · rw [if_pos hs]
          have hrun := (supports_iff c a).1 hs
          by_cases hb : a > 2 ∧ c.build512 = false
          · rw [if_pos hb]
            refine ⟨h0, hold, fun i hi hc hq => ?_⟩
            rcases List.mem_append.1 hi with hi | hi
            · exact h2 i hi hc hq
            · rw [List.mem_singleton] at hi
              subst hi
              rw [hq hb.1] at hb
              exact absurd hb.2 (by simp)
          · rw [if_neg hb]
            have hb' : 2 < a → c.build512 = true := fun h => by
              cases hx : c.build512
              · exact absurd ⟨h, hx⟩ hb
              · rfl
            by_cases hle : s.2 ≤ a
            · rw [if_pos hle]
              refine ⟨rfl, .inr ⟨by simp, hrun, hb'⟩, fun i hi hc hq => ?_⟩
              rcases List.mem_append.1 hi with hi | hi
              · have := h2 i hi hc hq; dsimp only; omega
              · rw [List.mem_singleton] at hi; subst hi; exact Nat.le_refl _
            · rw [if_neg hle]
              refine ⟨h0, hold, fun i hi hc hq => ?_⟩
              rcases List.mem_append.1 hi with hi | hi
              · exact h2 i hi hc hq
              · rw [List.mem_singleton] at hi; subst hi; omega
        · rw [if_neg hs]
          refine ⟨h0, hold, fun i hi hc hq => ?_⟩
          rcases List.mem_append.1 hi with hi | hi
          · exact h2 i hi hc hq
          · rw [List.mem_singleton] at hi
            subst hi
            exact absurd ((supports_iff c i).2 hc) hs
      obtain ⟨g0, g1, g2⟩ := hstep
      have := ih (done ++ [a]) (supStep c s a) g0 g1 g2
      simpa [List.append_assoc] using this
  have := key l [] (0, 0) rfl (.inl rfl) (fun i hi => absurd hi (by simp))
  simpa [supportedOf] using this

/-! ### threads -/

/-- **C48.**  The number of threads used is at least one, and never more than OpenMP's maximum, OpenMP's limit
or the positive number in AOCLSPARSE_NUM_THREADS; inside as many active parallel regions as OpenMP allows it is
one. -/
theorem C48_threads {env : Option Int} {procs mx lim lv cur : Int} (hp : 1 ≤ procs) (hm : 1 ≤ mx) (hl : 1 ≤ lim)
    (omp : Bool) :
    let n := getNumThreads omp env procs mx lim lv cur
    1 ≤ n ∧ n ≤ mx ∧ n ≤ lim ∧ (∀ v, env = some v → 1 ≤ v → n ≤ v) ∧ (∀ v, env = some v → v ≤ 0 → n = 1) ∧
      (lv ≤ cur → n = 1) ∧
      (omp = true → cur < lv → n = min (min mx lim) (match env with | some v => max v 1 | none => procs)) := by
  intro n
  have hn : n = getNumThreads omp env procs mx lim lv cur := rfl
  unfold getNumThreads at hn
  cases omp with
  | false =>
    simp only [Bool.false_eq_true, if_false] at hn
    rw [hn]
    exact ⟨by omega, hm, hl, fun v _ h => h, fun _ _ _ => rfl, fun _ => rfl, nofun⟩
  | true =>
    simp only [if_true] at hn
    cases env with
    | none =>
      simp only [Option.getD_none] at hn
      refine ⟨?_, ?_, ?_, nofun, nofun, ?_, ?_⟩
      all_goals
        try intro
        repeat' split at hn
        all_goals try dsimp only
        all_goals omega
    | some v =>
      simp only [Option.getD_some] at hn
      refine ⟨?_, ?_, ?_, fun v' hv => ?_, fun v' hv => ?_, ?_, ?_⟩
      all_goals
        try cases hv
        try intro
        repeat' split at hn
        all_goals try dsimp only
        all_goals omega

/-! ### examples -/

/-- a Zen 4 machine with everything, AVX-512 build -/
def exZen4 : Ctx := mkCtx true (fun _ => true) "" 4
/-- a machine with AVX2 only -/
def exAvx2 : Ctx := mkCtx true (fun f => f == 2) "" 0

example : Machine exZen4 ∧ Machine exAvx2 :=
  ⟨⟨C36_arch _ _ _ _, rfl, fun _ => rfl⟩, ⟨C36_arch _ _ _ _, rfl, fun _ => rfl⟩⟩

/-- the tuned row for the machine beats the generic ones; a preference beats the tuned row -/
example : let tbl : List (Row Nat) := [⟨some 0, 1, archAll⟩, ⟨some 1, 2, 8#32⟩, ⟨some 2, 2, 24#32⟩, ⟨some 3, 3, archAll⟩]
    oracle exZen4 (.init exZen4) tbl none (-1) 0 4 = some (some 1) ∧
    oracle exZen4 ((IsaHint.init exZen4).set 3) tbl none (-1) 0 4 = some (some 3) ∧
    oracle exAvx2 (.init exAvx2) tbl none (-1) 0 4 = some (some 0) ∧
    oracle exAvx2 (.init exAvx2) tbl none 3 0 4 = some none := by decide +kernel

example : trsvSelect exZen4 (.init exZen4) 18 (-1) = some (.ok ⟨3, 18, 3⟩) ∧
    trsvSelect exAvx2 (.init exAvx2) 18 (-1) = some (.ok ⟨1, 18, 2⟩) ∧
    trsvSelect exAvx2 (.init exAvx2) 18 3 = some (.error .invalidKid) := by
  decide +kernel

example : (prun exZen4 none (.start exZen4) [.call (tblVanilla true) (-1) 0 4, .enable "avx2",
    .call (tblVanilla true) (-1) 0 4, .enable "sse", .call (tblVanilla true) (-1) 0 4, .enable "",
    .call (tblVanilla true) 0 0 4]).map (·.1)
    = some [some ⟨3, 0, 3⟩, none, some ⟨1, 0, 2⟩, none, some ⟨1, 0, 2⟩, none, some ⟨0, 0, 1⟩] := by decide +kernel

example : getNumThreads true (some 8) 16 4 12 1 0 = 4 ∧ getNumThreads true (some (-3)) 16 4 12 1 0 = 1 ∧
    getNumThreads true none 16 64 12 1 1 = 1 := by decide

end Props
end Verif
