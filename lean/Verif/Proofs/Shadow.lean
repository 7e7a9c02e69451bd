/-
A run in floating-point arithmetic next to two runs of the same kernel on real numbers: one on the values, one on
their sizes.  As the kernels are generic, what is known about exact arithmetic applies to the latter two.
-/
import Verif.Spec.MvErr
import Verif.Proofs.MmRound
import Verif.Proofs.RoundedSp2m
import Verif.Model.CsrmvSym
import Verif.Model.EllMv

namespace Verif
open Model Rounding

/-- three computations all fail, or all end with related results -/
def Opt3 {α β γ : Type} (P : α → β → γ → Prop) : Option α → Option β → Option γ → Prop
  | some a, some b, some c => P a b c
  | none, none, none => True
  | _, _, _ => False

section opt
variable {α β γ α' β' γ' : Type} {P P' : α → β → γ → Prop} {Q : α' → β' → γ' → Prop}

theorem Opt3.mono (h : ∀ a b c, P a b c → P' a b c) : ∀ {a b c}, Opt3 P a b c → Opt3 P' a b c
  | some _, some _, some _, h' => h _ _ _ h'
  | none, none, none, _ => trivial

theorem Opt3.bind {f : α → Option α'} {g : β → Option β'} {h : γ → Option γ'} :
    ∀ {a b c}, Opt3 P a b c → (∀ x y z, P x y z → Opt3 Q (f x) (g y) (h z)) → Opt3 Q (a.bind f) (b.bind g) (c.bind h)
  | some _, some _, some _, h', k => k _ _ _ h'
  | none, none, none, _, _ => trivial

theorem Opt3.left {a : Option α} {y : β} {z : γ} (h : Opt3 P a (some y) (some z)) : ∃ x, a = some x ∧ P x y z := by
  cases a with
  | none => exact h.elim
  | some x => exact ⟨x, rfl, h⟩

theorem Opt3.forN {f : Int → α → Option α} {g : Int → β → Option β} {h : Int → γ → Option γ}
    (P : Nat → α → β → γ → Prop) (n : Nat) : ∀ (k : Nat) (lo : Int) (a : α) (b : β) (c : γ), P k a b c →
      (∀ j, k ≤ j → j < k + n → ∀ a b c, P j a b c →
        Opt3 (P (j + 1)) (f (lo + (j - k : Int)) a) (g (lo + (j - k : Int)) b) (h (lo + (j - k : Int)) c)) →
      Opt3 (P (k + n)) (forN f n lo a) (forN g n lo b) (forN h n lo c) := by
  induction n with
  | zero => intro k lo a b c h0 _; exact h0
  | succ n ih =>
    intro k lo a b c h0 hs
    refine Opt3.bind (P := P (k + 1)) (by have := hs k le_rfl (by omega) a b c h0; simpa using this) ?_
    intro x y z hp
    have := ih (k + 1) (lo + 1) x y z hp (fun j hj hj' a b c hp => by
      have := hs j (by omega) (by omega) a b c hp
      rw [show lo + 1 + ((j : Int) - ((k + 1 : Nat) : Int)) = lo + (j - k : Int) by push_cast; ring]
      exact this)
    rwa [show k + 1 + n = k + (n + 1) by omega] at this

theorem Opt3.forC {f : Int → α → Option α} {g : Int → β → Option β} {h : Int → γ → Option γ}
    (P : Nat → α → β → γ → Prop) {lo hi : Int} {a : α} {b : β} {c : γ} (h0 : P 0 a b c)
    (hs : ∀ j : Nat, lo + j < hi → ∀ a b c, P j a b c → Opt3 (P (j + 1)) (f (lo + j) a) (g (lo + j) b) (h (lo + j) c)) :
    Opt3 (P (hi - lo).toNat) (forC lo hi f a) (forC lo hi g b) (forC lo hi h c) := by
  have := Opt3.forN (f := f) (g := g) (h := h) P (hi - lo).toNat 0 lo a b c h0 (fun j _ hj a b c hp => by
    simpa using hs j (by omega) a b c hp)
  rw [Nat.zero_add] at this
  exact this

/-- related results of a loop with `break` -/
def Ex3 {α' β' γ' : Type} (P : α → β → γ → Prop) (Q : α' → β' → γ' → Prop) :
    Except α' α → Except β' β → Except γ' γ → Prop
  | .ok a, .ok b, .ok c => P a b c
  | .error a, .error b, .error c => Q a b c
  | _, _, _ => False

theorem Opt3.forEN {f : Int → α → Option (Except α' α)} {g : Int → β → Option (Except β' β)}
    {h : Int → γ → Option (Except γ' γ)}
    (P : Nat → α → β → γ → Prop) (n : Nat) : ∀ (k : Nat) (lo : Int) (a : α) (b : β) (c : γ), P k a b c →
      (∀ j, k ≤ j → j < k + n → ∀ i a b c, P j a b c → Opt3 (Ex3 (P (j + 1)) Q) (f i a) (g i b) (h i c)) →
      Opt3 (Ex3 (P (k + n)) Q) (forEN f n lo a) (forEN g n lo b) (forEN h n lo c) := by
  induction n with
  | zero => intro k lo a b c h0 _; exact h0
  | succ n ih =>
    intro k lo a b c h0 hs
    have := hs k le_rfl (by omega) lo a b c h0
    unfold Verif.forEN
    rcases ef : f lo a with _ | x <;> rcases eg : g lo b with _ | y <;> rcases eh : h lo c with _ | z <;>
      rw [ef, eg, eh] at this <;> try exact this.elim
    · trivial
    · rcases x with x | x <;> rcases y with y | y <;> rcases z with z | z <;> try exact this.elim
      · exact this
      · have := ih (k + 1) (lo + 1) x y z this (fun j hj hj' i a b c hp => hs j (by omega) (by omega) i a b c hp)
        rwa [show k + 1 + n = k + (n + 1) by omega] at this

theorem Opt3.forE {f : Int → α → Option (Except α' α)} {g : Int → β → Option (Except β' β)}
    {h : Int → γ → Option (Except γ' γ)} (P : Nat → α → β → γ → Prop) {lo hi : Int} {a : α} {b : β} {c : γ}
    (h0 : P 0 a b c)
    (hs : ∀ j : Nat, j < (hi - lo).toNat → ∀ i a b c, P j a b c → Opt3 (Ex3 (P (j + 1)) Q) (f i a) (g i b) (h i c)) :
    Opt3 (Ex3 (P (hi - lo).toNat) Q) (forE lo hi f a) (forE lo hi g b) (forE lo hi h c) := by
  have := Opt3.forEN (Q := Q) (f := f) (g := g) (h := h) P (hi - lo).toNat 0 lo a b c h0
    (fun j _ hj i a b c hp => hs j (by omega) i a b c hp)
  rw [Nat.zero_add] at this
  exact this

/-- a computation on integers, the same in all three -/
theorem Opt3.same (o : Option α) : Opt3 (fun a b c => b = a ∧ c = a) o o o := by
  cases o
  · trivial
  · exact ⟨rfl, rfl⟩
end opt

variable {R : Type} {ρ : Rounding} {v : R → ℝ} {fac : R → Option (ℝ × ℝ)}

/-- the sizes of the values -/
abbrev szs (v : R → ℝ) (L : List R) : List ℝ := L.map fun a => |v a|

theorem rd_rel {L : List R} (i : Int) :
    Opt3 (fun a e s => a ∈ L ∧ e = v a ∧ s = |v a|) (rd L i) (rd (L.map v) i) (rd (szs v L) i) := by
  by_cases hi : 0 ≤ i
  · rw [rd_eq hi, rd_eq hi, rd_eq hi, List.getElem?_map, List.getElem?_map]
    cases h : L[i.toNat]? with
    | none => trivial
    | some a => exact ⟨List.mem_of_getElem? h, rfl, rfl⟩
  · have h : ∀ {T : Type} (L : List T), rd L i = none := by intro T L; simp [rd, hi]
    rw [h, h, h]
    trivial

variable [Zero R] [Add R] [Mul R]

theorem term_rel (hR : Contracts ρ v fac) {ind : List Int} {val x : List R} (hx : ∀ a ∈ x, fac a = none) (base p : Int) :
    Opt3 (fun a e s => NearC ρ v fac 1 e s a) (term ind val x base p) (term ind (val.map v) (x.map v) base p)
      (term ind (szs v val) (szs v x) base p) := by
  unfold term
  refine Opt3.bind (Opt3.same _) ?_
  rintro c _ _ ⟨rfl, rfl⟩
  refine Opt3.bind (rd_rel p) ?_
  rintro a _ _ ⟨-, rfl, rfl⟩
  refine Opt3.bind (rd_rel _) ?_
  rintro b _ _ ⟨hb, rfl, rfl⟩
  exact NearC.prod hR (hx b hb)

/-! ### rows -/

theorem ellRowRef_rel [One R] [DecidableEq R] (hR : Contracts ρ v fac) {ec : List Int} {ev x : List R}
    (hx : ∀ a ∈ x, fac a = none) (w base i : Int) :
    Opt3 (fun a e s => NearC ρ v fac (w.toNat + 1) e s a) (ellRowRef w base ec ev x i)
      (ellRowRef w base ec (ev.map v) (x.map v) i) (ellRowRef w base ec (szs v ev) (szs v x) i) := by
  unfold ellRowRef
  refine Opt3.bind (P := Ex3 (fun a e s => NearC ρ v fac (w.toNat + 1) e s a)
    (fun a e s => NearC ρ v fac (w.toNat + 1) e s a)) ?_ ?_
  · refine Opt3.mono (P := Ex3 (fun a e s => NearC ρ v fac ((w - 0).toNat + 1) e s a)
      (fun a e s => NearC ρ v fac (w.toNat + 1) e s a)) ?_
      (Opt3.forE (Q := fun a e s => NearC ρ v fac (w.toNat + 1) e s a) (fun k a e s => NearC ρ v fac (k + 1) e s a) ((NearC.zero hR).mono (Nat.zero_le _)) ?_)
    · intro a b c h
      simpa using h
    · intro j hj p a e s hn
      refine Opt3.bind (Opt3.same _) ?_
      rintro c _ _ ⟨rfl, rfl⟩
      dsimp only
      split
      · refine Opt3.bind (rd_rel _) ?_
        rintro a1 _ _ ⟨-, rfl, rfl⟩
        refine Opt3.bind (rd_rel _) ?_
        rintro b1 _ _ ⟨hb, rfl, rfl⟩
        exact NearC.add hR hn ((NearC.prod hR (hx b1 hb)).mono (by omega))
      · exact hn.mono (by omega)
  · rintro (a | a) (b | b) (c | c) h
    all_goals first | exact h.elim | exact h

theorem elltRow_rel [One R] [DecidableEq R] (hR : Contracts ρ v fac) {ec : List Int} {ev x : List R}
    (hx : ∀ a ∈ x, fac a = none) (m w base i : Int) :
    Opt3 (fun a e s => NearC ρ v fac (w.toNat + 1) e s a) (elltRow m w base ec ev x i)
      (elltRow m w base ec (ev.map v) (x.map v) i) (elltRow m w base ec (szs v ev) (szs v x) i) := by
  unfold elltRow
  have := Opt3.forC (fun k a e s => NearC ρ v fac (k + 1) e s a) (lo := 0) (hi := w) (a := (0 : R)) (b := (0 : ℝ))
    (c := (0 : ℝ))
    (f := fun j r => (term ec ev x base (j * m + i)).bind fun t => some (r + t))
    (g := fun j r => (term ec (ev.map v) (x.map v) base (j * m + i)).bind fun t => some (r + t))
    (h := fun j r => (term ec (szs v ev) (szs v x) base (j * m + i)).bind fun t => some (r + t))
    ((NearC.zero hR).mono (Nat.zero_le _)) (by
      intro j _ a e s hn
      refine Opt3.bind (term_rel hR hx _ _) ?_
      intro a1 e1 s1 h1
      exact NearC.add hR hn (h1.mono (by omega)))
  simpa using this

/-- four lanes -/
def Near4 (ρ : Rounding) (v : R → ℝ) (fac : R → Option (ℝ × ℝ)) (k : Nat) (a : R × R × R × R) (e s : ℝ × ℝ × ℝ × ℝ) :
    Prop :=
  NearC ρ v fac k e.1 s.1 a.1 ∧ NearC ρ v fac k e.2.1 s.2.1 a.2.1 ∧ NearC ρ v fac k e.2.2.1 s.2.2.1 a.2.2.1 ∧
    NearC ρ v fac k e.2.2.2 s.2.2.2 a.2.2.2

theorem near4_zero (hR : Contracts ρ v fac) (k : Nat) :
    Near4 ρ v fac k ((0, 0, 0, 0) : R × R × R × R) (0, 0, 0, 0) (0, 0, 0, 0) := by
  have := (NearC.zero hR).mono (Nat.zero_le k)
  exact ⟨this, this, this, this⟩

theorem fma4_rel (hR : Contracts ρ v fac) {ind : List Int} {val x : List R} (hx : ∀ a ∈ x, fac a = none) (base p : Int)
    {k : Nat} (hk : 1 ≤ k) {a : R × R × R × R} {e s : ℝ × ℝ × ℝ × ℝ} (h : Near4 ρ v fac k a e s) :
    Opt3 (Near4 ρ v fac (k + 1)) (fma4 ind val x base p a) (fma4 ind (val.map v) (x.map v) base p e)
      (fma4 ind (szs v val) (szs v x) base p s) := by
  unfold fma4
  refine Opt3.bind (term_rel hR hx _ _) fun a0 e0 s0 h0 => ?_
  refine Opt3.bind (term_rel hR hx _ _) fun a1 e1 s1 h1 => ?_
  refine Opt3.bind (term_rel hR hx _ _) fun a2 e2 s2 h2 => ?_
  refine Opt3.bind (term_rel hR hx _ _) fun a3 e3 s3 h3 => ?_
  exact ⟨NearC.add hR (h0.mono hk) h.1, NearC.add hR (h1.mono hk) h.2.1, NearC.add hR (h2.mono hk) h.2.2.1,
    NearC.add hR (h3.mono hk) h.2.2.2⟩

theorem hsum4_rel (hR : Contracts ρ v fac) {k : Nat} {a : R × R × R × R} {e s : ℝ × ℝ × ℝ × ℝ}
    (h : Near4 ρ v fac k a e s) : NearC ρ v fac (k + 2) (hsum4 e) (hsum4 s) (hsum4 a) :=
  NearC.add hR (NearC.add hR h.1 h.2.1) (NearC.add hR h.2.2.1 h.2.2.2)

theorem ellRowAvx2_rel [One R] [DecidableEq R] (hR : Contracts ρ v fac) {ec : List Int} {ev x : List R}
    (hx : ∀ a ∈ x, fac a = none) (w : Nat) (base i : Int) :
    Opt3 (fun a e s => NearC ρ v fac (w / 4 + 7) e s a) (ellRowAvx2 w base ec ev x i)
      (ellRowAvx2 w base ec (ev.map v) (x.map v) i) (ellRowAvx2 w base ec (szs v ev) (szs v x) i) := by
  have e1 : ((w : Int)).tdiv 4 = ((w / 4 : Nat) : Int) := by
    rw [Int.tdiv_eq_ediv_of_nonneg (by omega)]; omega
  have e2 : ((w : Int)).tmod 4 = ((w % 4 : Nat) : Int) := by
    rw [Int.tmod_eq_emod_of_nonneg (by omega)]; omega
  let V := fun (k : Nat) (a : (R × R × R × R) × Int) (e s : (ℝ × ℝ × ℝ × ℝ) × Int) =>
    Near4 ρ v fac k a.1 e.1 s.1 ∧ e.2 = a.2 ∧ s.2 = a.2
  have hvec : Opt3 (Ex3 (V (w / 4 + 1)) (V (w / 4 + 1))) (ellVecLoop w base ec ev x i)
      (ellVecLoop w base ec (ev.map v) (x.map v) i) (ellVecLoop w base ec (szs v ev) (szs v x) i) := by
    unfold ellVecLoop
    rw [e1]
    refine Opt3.mono (P := Ex3 (V ((((w / 4 : Nat) : Int) - 0).toNat + 1)) (V (w / 4 + 1))) ?_
      (Opt3.forE (Q := V (w / 4 + 1)) (fun k => V (k + 1)) ⟨near4_zero hR _, rfl, rfl⟩ ?_)
    · intro a b c h
      rwa [show (((w / 4 : Nat) : Int) - 0).toNat = w / 4 by omega] at h
    · rintro j hj p ⟨a, pa⟩ ⟨b, pb⟩ ⟨c, pc⟩ ⟨hn, rfl, rfl⟩
      refine Opt3.bind (Opt3.same _) ?_
      rintro c' _ _ ⟨rfl, rfl⟩
      dsimp only
      split
      · refine Opt3.bind (fma4_rel hR hx base _ (by omega) hn) ?_
        intro a1 b1 c1 h1
        exact ⟨h1, rfl, rfl⟩
      · have : j + 1 ≤ w / 4 + 1 := by omega
        exact ⟨⟨hn.1.mono this, hn.2.1.mono this, hn.2.2.1.mono this, hn.2.2.2.mono this⟩, rfl, rfl⟩
  -- the remainder loop
  have hrem : ∀ (k n : Nat) (p : Int) (a : R) (e s : ℝ), n ≤ 4 → 1 ≤ k → NearC ρ v fac k e s a →
      Opt3 (Ex3 (fun a e s => NearC ρ v fac (k + 4) e.1 s.1 a.1) (fun a e s => NearC ρ v fac (k + 4) e.1 s.1 a.1))
        (ellRemLoop base ec ev x (n : Int) a p) (ellRemLoop base ec (ev.map v) (x.map v) (n : Int) e p)
        (ellRemLoop base ec (szs v ev) (szs v x) (n : Int) s p) := by
    intro k n p a e s hn hk hnear
    unfold ellRemLoop
    refine Opt3.mono (P := Ex3 (fun (a : R × Int) (e s : ℝ × Int) =>
        NearC ρ v fac (k + ((n : Int) - 0).toNat) e.1 s.1 a.1 ∧ e.2 = a.2 ∧ s.2 = a.2)
        (fun (a : R × Int) (e s : ℝ × Int) => NearC ρ v fac (k + 4) e.1 s.1 a.1)) ?_
      (Opt3.forE (Q := fun (a : R × Int) (e s : ℝ × Int) => NearC ρ v fac (k + 4) e.1 s.1 a.1)
        (fun j (a : R × Int) (e s : ℝ × Int) => NearC ρ v fac (k + j) e.1 s.1 a.1 ∧ e.2 = a.2 ∧ s.2 = a.2)
        ⟨hnear, rfl, rfl⟩ ?_)
    · rintro (a | a) (b | b) (c | c) h
      all_goals first | exact h.elim | exact h | exact NearC.mono h.1 (by omega)
    · rintro j hj q ⟨a, pa⟩ ⟨b, pb⟩ ⟨c, pc⟩ ⟨hn', rfl, rfl⟩
      refine Opt3.bind (Opt3.same _) ?_
      rintro c' _ _ ⟨rfl, rfl⟩
      dsimp only
      split
      · refine Opt3.bind (rd_rel _) ?_
        rintro a1 _ _ ⟨-, rfl, rfl⟩
        refine Opt3.bind (rd_rel _) ?_
        rintro b1 _ _ ⟨hb, rfl, rfl⟩
        exact ⟨NearC.add hR hn' ((NearC.prod hR (hx b1 hb)).mono (show 1 ≤ k + j by omega)), rfl, rfl⟩
      · exact NearC.mono hn' (show k + j ≤ k + 4 by omega)
  have hsum : ∀ {k : Nat} {a : R × R × R × R} {e s : ℝ × ℝ × ℝ × ℝ}, Near4 ρ v fac k a e s →
      NearC ρ v fac (k + 2) (if ((w / 4 : Nat) : Int) ≠ 0 then hsum4 e else 0)
        (if ((w / 4 : Nat) : Int) ≠ 0 then hsum4 s else 0) (if ((w / 4 : Nat) : Int) ≠ 0 then hsum4 a else 0) := by
    intro k a e s h
    split
    · exact hsum4_rel hR h
    · exact (NearC.zero hR).mono (by omega)
  unfold ellRowAvx2
  rw [e1, e2]
  refine Opt3.bind hvec ?_
  rintro (⟨a, pa⟩ | ⟨a, pa⟩) (⟨b, pb⟩ | ⟨b, pb⟩) (⟨c, pc⟩ | ⟨c, pc⟩) h
  all_goals first
    | exact h.elim
    | skip
  · obtain ⟨hn, rfl, rfl⟩ := h
    refine Opt3.bind (hrem (w / 4 + 1 + 2) 4 _ _ _ _ le_rfl (by omega) (hsum hn)) ?_
    rintro (a | a) (b | b) (c | c) h
    all_goals first | exact h.elim | exact NearC.mono h (by omega)
  · obtain ⟨hn, rfl, rfl⟩ := h
    refine Opt3.bind (hrem (w / 4 + 1 + 2) (w % 4) _ _ _ _ (by omega) (by omega) (hsum hn)) ?_
    rintro (a | a) (b | b) (c | c) h
    all_goals first | exact h.elim | exact NearC.mono h (by omega)

/-! ### writing `y` -/

/-- `y[i] = fin r y[i]` -/
def shPut {T : Type} (fin : T → T → T) (r : T) (i : Int) (y : List T) : Option (List T) :=
  (rd y i).bind fun yi => wr y i (fin r yi)

section fins
variable {T : Type} [Zero T] [One T] [Add T] [Mul T] [DecidableEq T]

def finS (alpha beta r yi : T) : T :=
  if beta ≠ 0 then (if alpha ≠ 1 then alpha * r else r) + beta * yi else (if alpha ≠ 1 then alpha * r else r)
omit [One T] in
def finA (alpha beta r yi : T) : T := if beta ≠ 0 then alpha * r + beta * yi else alpha * r
def finB (alpha beta r yi : T) : T :=
  if beta ≠ 0 then beta * yi + (if alpha ≠ 1 then alpha * r else r) else (if alpha ≠ 1 then alpha * r else r)

omit [Zero T] [One T] [Add T] [Mul T] [DecidableEq T] in
theorem shPut_const (c r : T) (i : Int) (y : List T) : wr y i c = shPut (fun _ _ => c) r i y := by
  unfold shPut
  cases h : rd y i with
  | some a => rfl
  | none =>
    have : ¬ (rd y i).isSome := by rw [h]; simp
    rw [rd_isSome_iff] at this
    simp only [Option.bind_none]
    unfold wr
    rw [if_neg]
    omega

theorem storeRow_put (alpha beta r : T) (i : Int) (y : List T) :
    storeRow alpha beta r i y = shPut (finS alpha beta) r i y := by
  unfold storeRow finS
  by_cases hb : beta = 0
  · simp only [hb, ne_eq, not_true_eq_false, if_false]
    exact shPut_const _ r i y
  · simp only [hb, ne_eq, not_false_eq_true, if_true]
    rfl

omit [One T] in
theorem storeRowA_put (alpha beta r : T) (i : Int) (y : List T) :
    storeRowA alpha beta r i y = shPut (finA alpha beta) r i y := by
  unfold storeRowA finA
  by_cases hb : beta = 0
  · simp only [hb, ne_eq, not_true_eq_false, if_false]
    exact shPut_const _ r i y
  · simp only [hb, ne_eq, not_false_eq_true, if_true]
    rfl

omit [Zero T] [One T] [Add T] [Mul T] [DecidableEq T] in
theorem shPut_read {fin : T → T → T} {r : T} {i k : Int} {y y' : List T} (h : shPut fin r i y = some y') (hk : k ≠ i) :
    rd y' k = rd y k := by
  obtain ⟨a, -, h⟩ := Option.bind_eq_some_iff.1 h
  rw [rd_wr h, if_neg hk]

omit [Zero T] [One T] [Add T] [Mul T] [DecidableEq T] in
/-- reading four cells and writing them is writing them one by one -/
theorem shPut4 (fin : T → T → T) (r : T × T × T × T) (j : Int) (y : List T) :
    ((rd y j).bind fun y0 => (rd y (j + 1)).bind fun y1 => (rd y (j + 2)).bind fun y2 => (rd y (j + 3)).bind fun y3 =>
      (wr y j (fin r.1 y0)).bind fun y => (wr y (j + 1) (fin r.2.1 y1)).bind fun y =>
        (wr y (j + 2) (fin r.2.2.1 y2)).bind fun y => wr y (j + 3) (fin r.2.2.2 y3)) =
    (shPut fin r.1 j y).bind fun y => (shPut fin r.2.1 (j + 1) y).bind fun y =>
      (shPut fin r.2.2.1 (j + 2) y).bind fun y => shPut fin r.2.2.2 (j + 3) y := by
  have wl : ∀ {y y' : List T} {i k : Int} {c : T}, wr y i c = some y' → k ≠ i → rd y' k = rd y k := by
    intro y y' i k c h hk; rw [rd_wr h, if_neg hk]
  have wn : ∀ {y : List T} {i : Int} {a c : T}, rd y i = some a → ∃ y', wr y i c = some y' := by
    intro y i a c h
    have : (rd y i).isSome := by rw [h]; rfl
    rw [rd_isSome_iff] at this
    exact ⟨_, wr_eq this.1 this.2⟩
  unfold shPut
  cases h0 : rd y j with
  | none => rfl
  | some y0 =>
    obtain ⟨Y1, w1⟩ := wn (c := fin r.1 y0) h0
    simp only [Option.bind_some, w1]
    rw [wl w1 (show j + 1 ≠ j by omega)]
    cases h1 : rd y (j + 1) with
    | none => rfl
    | some y1 =>
      obtain ⟨Y2, w2⟩ := wn (c := fin r.2.1 y1) ((wl w1 (show j + 1 ≠ j by omega)).trans h1)
      simp only [Option.bind_some, w2]
      rw [wl w2 (show j + 2 ≠ j + 1 by omega), wl w1 (show j + 2 ≠ j by omega)]
      cases h2 : rd y (j + 2) with
      | none => rfl
      | some y2 =>
        obtain ⟨Y3, w3⟩ := wn (c := fin r.2.2.1 y2)
          ((wl w2 (show j + 2 ≠ j + 1 by omega)).trans ((wl w1 (show j + 2 ≠ j by omega)).trans h2))
        simp only [Option.bind_some, w3]
        rw [wl w3 (show j + 3 ≠ j + 2 by omega), wl w2 (show j + 3 ≠ j + 1 by omega), wl w1 (show j + 3 ≠ j by omega)]

theorem storeRow4_put (alpha beta : T) (r : T × T × T × T) (j : Int) (y : List T) :
    storeRow4 alpha beta r j y =
    (shPut (finB alpha beta) r.1 j y).bind fun y => (shPut (finB alpha beta) r.2.1 (j + 1) y).bind fun y =>
      (shPut (finB alpha beta) r.2.2.1 (j + 2) y).bind fun y => shPut (finB alpha beta) r.2.2.2 (j + 3) y := by
  by_cases hb : beta = 0
  · unfold storeRow4
    simp only [hb, ne_eq, not_true_eq_false, if_false]
    have : ∀ (q : T) (i : Int) (y : List T), shPut (finB alpha 0) q i y
        = wr y i (if alpha ≠ 1 then alpha * q else q) := by
      intro q i y
      rw [shPut_const _ q]
      unfold finB
      simp only [ne_eq, not_true_eq_false, if_false]
      rfl
    simp only [this]
    by_cases ha : alpha = 1
    · simp only [ha, ne_eq, not_true_eq_false, if_false]; rfl
    · simp only [ha, ne_eq, not_false_eq_true, if_true]; rfl
  · rw [← shPut4 (finB alpha beta) r j y]
    unfold storeRow4 finB
    simp only [hb, ne_eq, not_false_eq_true, if_true]
    by_cases ha : alpha = 1
    · simp only [ha, ne_eq, not_true_eq_false, if_false]
      cases rd y j <;> [rfl; skip]
      cases rd y (j + 1) <;> [rfl; skip]
      cases rd y (j + 2) <;> [rfl; skip]
      cases rd y (j + 3) <;> rfl
    · simp only [ha, ne_eq, not_false_eq_true, if_true]
      cases rd y j <;> [rfl; skip]
      cases rd y (j + 1) <;> [rfl; skip]
      cases rd y (j + 2) <;> [rfl; skip]
      cases rd y (j + 3) <;> rfl
end fins

theorem finS_real (a b r y : ℝ) : finS a b r y = a * r + b * y := by
  unfold finS; split_ifs <;> simp_all
theorem finA_real (a b r y : ℝ) : finA a b r y = a * r + b * y := by
  unfold finA; split_ifs <;> simp_all
theorem finB_real (a b r y : ℝ) : finB a b r y = a * r + b * y := by
  unfold finB; split_ifs <;> simp_all [add_comm]

/-- what `fin` does in the three arithmetics -/
structure FinRel (ρ : Rounding) (v : R → ℝ) (fac : R → Option (ℝ × ℝ)) (alpha beta : R) (fin : R → R → R)
    (fe fs : ℝ → ℝ → ℝ) : Prop where
  near : ∀ {k : Nat} {e s : ℝ} {r q : R}, NearC ρ v fac k e s r → fac q = none →
    NearC ρ v fac (k + 2) (v alpha * e + v beta * v q) (|v alpha| * s + |v beta| * |v q|) (fin r q)
  val : ∀ r q, fe r q = v alpha * r + v beta * q
  size : ∀ r q, fs r q = |v alpha| * r + |v beta| * q

section fin
variable [One R] [DecidableEq R]

theorem near_scale (hR : Contracts ρ v fac) (h1 : v 1 = 1) (alpha : R) {k : Nat} {e s : ℝ} {r : R}
    (h : NearC ρ v fac k e s r) :
    NearC ρ v fac (k + 1) (v alpha * e) (|v alpha| * s) (if alpha ≠ 1 then alpha * r else r) := by
  by_cases ha : alpha = 1
  · subst ha
    rw [h1, abs_one, one_mul, one_mul, if_neg (by simp)]
    exact h.mono (Nat.le_succ _)
  · rw [if_pos ha]
    exact NearC.mul_left hR alpha h

omit [DecidableEq R] [One R] in
theorem near_beta0 (hR : Contracts ρ v fac) {k : Nat} {e s : ℝ} {q r : R} (h : NearC ρ v fac k e s r) :
    NearC ρ v fac k (e + v 0 * v q) (s + |v (0 : R)| * |v q|) r := by
  rw [hR.zero, abs_zero, zero_mul, zero_mul, add_zero, add_zero]
  exact h

theorem finS_rel (hR : Contracts ρ v fac) (h1 : v 1 = 1) (alpha beta : R) :
    FinRel ρ v fac alpha beta (finS alpha beta) (finS (v alpha) (v beta)) (finS |v alpha| |v beta|) where
  near {k e s r q} h hq := by
    have hs := near_scale hR h1 alpha h
    unfold finS
    by_cases hb : beta = 0
    · subst hb
      rw [if_neg (by simp)]
      exact near_beta0 hR (hs.mono (Nat.le_succ _))
    · rw [if_pos hb]
      exact NearC.add hR hs ((NearC.prod hR hq).mono (by omega))
  val := finS_real _ _
  size := finS_real _ _

omit [One R] in
theorem finA_rel (hR : Contracts ρ v fac) (alpha beta : R) :
    FinRel ρ v fac alpha beta (finA alpha beta) (finA (v alpha) (v beta)) (finA |v alpha| |v beta|) where
  near {k e s r q} h hq := by
    have hs := NearC.mul_left hR alpha h
    unfold finA
    by_cases hb : beta = 0
    · subst hb
      rw [if_neg (by simp)]
      exact near_beta0 hR (hs.mono (Nat.le_succ _))
    · rw [if_pos hb]
      exact NearC.add hR hs ((NearC.prod hR hq).mono (by omega))
  val := finA_real _ _
  size := finA_real _ _

theorem finB_rel (hR : Contracts ρ v fac) (h1 : v 1 = 1) (alpha beta : R) :
    FinRel ρ v fac alpha beta (finB alpha beta) (finB (v alpha) (v beta)) (finB |v alpha| |v beta|) where
  near {k e s r q} h hq := by
    have hs := near_scale hR h1 alpha h
    unfold finB
    by_cases hb : beta = 0
    · subst hb
      rw [if_neg (by simp)]
      exact near_beta0 hR (hs.mono (Nat.le_succ _))
    · rw [if_pos hb, add_comm (v alpha * e), add_comm (|v alpha| * s)]
      exact NearC.add hR ((NearC.prod hR hq).mono (by omega)) hs
  val := finB_real _ _
  size := finB_real _ _
end fin

/-- the rows in `D` are written, the others not yet -/
structure YRel (ρ : Rounding) (v : R → ℝ) (fac : R → Option (ℝ × ℝ)) (K : Nat → Nat) (y0 : List R) (D : Nat → Prop)
    (y : List R) (ye ys : List ℝ) : Prop where
  len : y.length = y0.length ∧ ye.length = y0.length ∧ ys.length = y0.length
  done : ∀ i, D i → i < y0.length → ∃ r e s, y[i]? = some r ∧ ye[i]? = some e ∧ ys[i]? = some s ∧ NearC ρ v fac (K i) e s r
  todo : ∀ i, ¬ D i → y[i]? = y0[i]? ∧ ye[i]? = y0[i]?.map v ∧ ys[i]? = y0[i]?.map fun a => |v a|

theorem YRel.init {K : Nat → Nat} (y0 : List R) {D : Nat → Prop} (hD : ∀ i, ¬ D i) :
    YRel ρ v fac K y0 D y0 (y0.map v) (szs v y0) where
  len := by simp
  done i h := (hD i h).elim
  todo i _ := by simp

theorem YRel.congr {K : Nat → Nat} {y0 : List R} {D D' : Nat → Prop} {y : List R} {ye ys : List ℝ}
    (h : YRel ρ v fac K y0 D y ye ys) (hD : ∀ i, D' i ↔ D i) : YRel ρ v fac K y0 D' y ye ys := by
  have : D' = D := funext fun i => propext (hD i)
  rw [this]; exact h

theorem put_rel {alpha beta : R} {fin : R → R → R} {fe fs : ℝ → ℝ → ℝ} (hf : FinRel ρ v fac alpha beta fin fe fs)
    {K : Nat → Nat} {y0 : List R} (hy0 : ∀ a ∈ y0, fac a = none) {D : Nat → Prop} {y : List R} {ye ys : List ℝ}
    (h : YRel ρ v fac K y0 D y ye ys) {i : Nat} (hi : ¬ D i) {k : Nat} (hk : k + 2 ≤ K i) {r : R} {e s : ℝ}
    (hr : NearC ρ v fac k e s r) :
    Opt3 (YRel ρ v fac K y0 fun j => D j ∨ j = i) (shPut fin r i y) (shPut fe e i ye) (shPut fs s i ys) := by
  obtain ⟨t1, t2, t3⟩ := h.todo i hi
  obtain ⟨l1, l2, l3⟩ := h.len
  unfold shPut
  rw [rd_ofNat, rd_ofNat, rd_ofNat, t1, t2, t3]
  by_cases hl : i < y0.length
  · rw [List.getElem?_eq_getElem hl]
    simp only [Option.map_some, Option.bind_some]
    rw [wr_ofNat (by omega), wr_ofNat (by omega), wr_ofNat (by omega)]
    refine ⟨by simp [l1, l2, l3], ?_, ?_⟩
    · intro j hj hjl
      by_cases hji : j = i
      · subst hji
        refine ⟨_, _, _, List.getElem?_set_self (by omega), List.getElem?_set_self (by omega),
          List.getElem?_set_self (by omega), ?_⟩
        rw [hf.val, hf.size]
        exact (hf.near hr (hy0 _ (List.getElem_mem hl))).mono hk
      · rw [List.getElem?_set_ne (Ne.symm hji), List.getElem?_set_ne (Ne.symm hji), List.getElem?_set_ne (Ne.symm hji)]
        exact h.done j (hj.resolve_right hji) hjl
    · intro j hj
      have hji : j ≠ i := fun e => hj (Or.inr e)
      rw [List.getElem?_set_ne (Ne.symm hji), List.getElem?_set_ne (Ne.symm hji), List.getElem?_set_ne (Ne.symm hji)]
      exact h.todo j fun hd => hj (Or.inl hd)
  · rw [List.getElem?_eq_none (by omega)]
    trivial

/-- a loop that writes one row after the other -/
theorem rows_rel {alpha beta : R} {fin : R → R → R} {fe fs : ℝ → ℝ → ℝ} (hf : FinRel ρ v fac alpha beta fin fe fs)
    {K : Nat → Nat} {y0 : List R} (hy0 : ∀ a ∈ y0, fac a = none) {lo m : Nat} (hlo : lo ≤ m)
    {row : Int → Option R} {rowe rows' : Int → Option ℝ} {k : Nat → Nat} (hk : ∀ i, k i + 2 ≤ K i)
    (hrow : ∀ i : Nat, i < m → Opt3 (fun a e s => NearC ρ v fac (k i) e s a) (row i) (rowe i) (rows' i))
    {y : List R} {ye ys : List ℝ} (h : YRel ρ v fac K y0 (· < lo) y ye ys) :
    Opt3 (YRel ρ v fac K y0 (· < m)) (forC lo m (fun i y => (row i).bind fun r => shPut fin r i y) y)
      (forC lo m (fun i y => (rowe i).bind fun r => shPut fe r i y) ye)
      (forC lo m (fun i y => (rows' i).bind fun r => shPut fs r i y) ys) := by
  have := Opt3.forC (fun j => YRel ρ v fac K y0 (· < lo + j)) (lo := (lo : Int)) (hi := (m : Int))
    (f := fun i y => (row i).bind fun r => shPut fin r i y) (g := fun i y => (rowe i).bind fun r => shPut fe r i y)
    (h := fun i y => (rows' i).bind fun r => shPut fs r i y) h (by
      intro j hj a b c hy
      rw [show (lo : Int) + j = ((lo + j : Nat) : Int) by push_cast; rfl]
      refine Opt3.bind (hrow (lo + j) (by omega)) fun r e s hr => ?_
      refine Opt3.mono (fun _ _ _ h => YRel.congr h ?_) (put_rel hf hy0 hy (show ¬ lo + j < lo + j by omega) (hk _) hr)
      intro i
      omega)
  rwa [show lo + ((m : Int) - lo).toNat = m by omega] at this

/-- four rows -/
theorem put4_rel {alpha beta : R} {fin : R → R → R} {fe fs : ℝ → ℝ → ℝ} (hf : FinRel ρ v fac alpha beta fin fe fs)
    {K : Nat → Nat} {y0 : List R} (hy0 : ∀ a ∈ y0, fac a = none) {lo : Nat} {k : Nat} (hk : ∀ i, k + 2 ≤ K i)
    {y : List R} {ye ys : List ℝ} (h : YRel ρ v fac K y0 (· < lo) y ye ys)
    {r : R × R × R × R} {e s : ℝ × ℝ × ℝ × ℝ} (hr : Near4 ρ v fac k r e s) :
    Opt3 (YRel ρ v fac K y0 (· < lo + 4))
      ((shPut fin r.1 lo y).bind fun y => (shPut fin r.2.1 (lo + 1) y).bind fun y =>
        (shPut fin r.2.2.1 (lo + 2) y).bind fun y => shPut fin r.2.2.2 (lo + 3) y)
      ((shPut fe e.1 lo ye).bind fun y => (shPut fe e.2.1 (lo + 1) y).bind fun y =>
        (shPut fe e.2.2.1 (lo + 2) y).bind fun y => shPut fe e.2.2.2 (lo + 3) y)
      ((shPut fs s.1 lo ys).bind fun y => (shPut fs s.2.1 (lo + 1) y).bind fun y =>
        (shPut fs s.2.2.1 (lo + 2) y).bind fun y => shPut fs s.2.2.2 (lo + 3) y) := by
  refine Opt3.bind (put_rel hf hy0 h (i := lo) (by omega) (hk _) hr.1) fun a b c h1 => ?_
  have h2 := put_rel hf hy0 h1 (i := lo + 1) (by omega) (hk _) hr.2.1
  push_cast at h2
  refine Opt3.bind h2 fun a b c h2 => ?_
  have h3 := put_rel hf hy0 h2 (i := lo + 2) (by omega) (hk _) hr.2.2.1
  push_cast at h3
  refine Opt3.bind h3 fun a b c h3 => ?_
  have h4 := put_rel hf hy0 h3 (i := lo + 3) (by omega) (hk _) hr.2.2.2
  push_cast at h4
  refine Opt3.mono (fun _ _ _ h => YRel.congr h ?_) h4
  intro i
  omega

/-- what the three runs say about the first -/
theorem mvErr_of {K : Nat → Nat} {alpha beta : R} {M N : Mat ℝ} {m n : Nat} {x y : List R} {o : Option (List R)}
    {ye ys : List ℝ} (hm : m ≤ y.length) (h : Opt3 (YRel ρ v fac K y (· < m)) o (some ye) (some ys))
    (he : IsMv (v alpha) (v beta) M m n (x.map v) (y.map v) ye)
    (hs : IsMv |v alpha| |v beta| N m n (szs v x) (szs v y) ys) :
    ∃ y', o = some y' ∧ MvErr ρ v K alpha beta M N m n x y y' := by
  obtain ⟨y', rfl, h⟩ := h.left
  refine ⟨y', rfl, h.len.1, ?_, fun i hi => (h.todo i (by omega)).1⟩
  intro i hi
  obtain ⟨r, e, s, hr, h1, h2, hn⟩ := h.done i hi (by omega)
  rw [he.rows i hi] at h1
  rw [hs.rows i hi] at h2
  have hl : i < y.length := by omega
  refine ⟨y[i], r, List.getElem?_eq_getElem hl, hr, ?_⟩
  have := hn.1.2
  cases h1; cases h2
  simpa [List.getD, List.getElem?_eq_getElem hl, Rounding.g] using this

end Verif
