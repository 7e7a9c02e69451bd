/-
Memory and control-flow primitives shared by every model file.

* A C array is a `List`.  `rd`/`wr` are array accesses; an index outside the
  array (negative or too large) yields `none`, which stands for *undefined
  behaviour*.  Model functions therefore live in the `Option` monad and
  `f … = some r` says "f exhibits no undefined behaviour and returns r".
* `forC lo hi body` models `for(aoclsparse_int i = lo; i < hi; ++i) body`.
* `forD hi lo body` models `for(aoclsparse_int i = hi; i >= lo; --i) body`.
* `forE` is `forC` whose body may leave the function early (`return status`).

These are modelling conventions; they correspond to no particular file of the
library.
-/
namespace Verif



variable {α : Type} {σ : Type} {ε : Type}

/-- Array read `a[i]`; `none` = out-of-bounds access (undefined behaviour). -/
def rd (a : List α) (i : Int) : Option α :=
  if 0 ≤ i then a[i.toNat]? else none

/-- Array write `a[i] = v`; `none` = out-of-bounds access (undefined behaviour). -/
def wr (a : List α) (i : Int) (v : α) : Option (List α) :=
  if 0 ≤ i ∧ i.toNat < a.length then some (a.set i.toNat v) else none

/-- `n` iterations of a counting loop starting at `i`. -/
def forN (f : Int → σ → Option σ) : Nat → Int → σ → Option σ
  | 0, _, s => some s
  | n + 1, i, s => (f i s).bind (forN f n (i + 1))

/-- `for(i = lo; i < hi; ++i) f i`. -/
def forC (lo hi : Int) (f : Int → σ → Option σ) (s : σ) : Option σ :=
  forN f (hi - lo).toNat lo s

/-- `n` iterations of a downward counting loop starting at `i`. -/
def forND (f : Int → σ → Option σ) : Nat → Int → σ → Option σ
  | 0, _, s => some s
  | n + 1, i, s => (f i s).bind (forND f n (i - 1))

/-- `for(i = hi; i >= lo; --i) f i`. -/
def forD (hi lo : Int) (f : Int → σ → Option σ) (s : σ) : Option σ :=
  forND f (hi - lo + 1).toNat hi s

/-- `n` iterations of a loop whose body may return early. -/
def forEN (f : Int → σ → Option (Except ε σ)) : Nat → Int → σ → Option (Except ε σ)
  | 0, _, s => some (.ok s)
  | n + 1, i, s =>
    match f i s with
    | none => none
    | some (.error e) => some (.error e)
    | some (.ok s') => forEN f n (i + 1) s'

/-- `for(i = lo; i < hi; ++i) body`, where `.error e` is `return e`. -/
def forE (lo hi : Int) (f : Int → σ → Option (Except ε σ)) (s : σ) : Option (Except ε σ) :=
  forEN f (hi - lo).toNat lo s

/-! ### Basic lemmas -/

theorem rd_ofNat (a : List α) (i : Nat) : rd a (i : Int) = a[i]? := by
  simp [rd]

theorem rd_eq {a : List α} {i : Int} (h0 : 0 ≤ i) : rd a i = a[i.toNat]? := by
  simp [rd, h0]

theorem rd_neg {a : List α} {i : Int} (h : i < 0) : rd a i = none := by
  simp [rd]; omega

theorem rd_some_iff {a : List α} {i : Int} {v : α} :
    rd a i = some v ↔ 0 ≤ i ∧ a[i.toNat]? = some v := by
  unfold rd; split
  · simp_all
  · simp only [reduceCtorEq, false_iff]; omega

theorem rd_isSome_iff {a : List α} {i : Int} :
    (rd a i).isSome ↔ 0 ≤ i ∧ i < a.length := by
  unfold rd; split <;> simp [*] <;> omega

theorem rd_exists {a : List α} {i : Int} (h0 : 0 ≤ i) (h1 : i < a.length) :
    ∃ v, rd a i = some v := by
  have := (rd_isSome_iff (a := a) (i := i)).2 ⟨h0, h1⟩
  exact Option.isSome_iff_exists.1 this

theorem rd_getElem {a : List α} {i : Int} (h0 : 0 ≤ i) (h1 : i.toNat < a.length) :
    rd a i = some (a[i.toNat]'h1) := by
  simp [rd, h0, h1]

theorem wr_eq {a : List α} {i : Int} {v : α} (h0 : 0 ≤ i) (h1 : i < a.length) :
    wr a i v = some (a.set i.toNat v) := by
  unfold wr; rw [if_pos]; omega

theorem wr_ofNat {a : List α} {i : Nat} {v : α} (h1 : i < a.length) :
    wr a (i : Int) v = some (a.set i v) := by
  rw [wr_eq (by omega) (by omega)]; simp

theorem wr_some_iff {a b : List α} {i : Int} {v : α} :
    wr a i v = some b ↔ 0 ≤ i ∧ i < a.length ∧ b = a.set i.toNat v := by
  unfold wr; split <;> simp_all <;> first | omega | (constructor <;> (intro h; first | exact ⟨by omega, h.symm⟩ | exact h.2.symm | omega))

theorem wr_length {a b : List α} {i : Int} {v : α} (h : wr a i v = some b) :
    b.length = a.length := by
  have := wr_some_iff.1 h; simp [this.2.2]

theorem rd_wr {a b : List α} {i k : Int} {v : α} (h : wr a i v = some b) :
    rd b k = if k = i then some v else rd a k := by
  obtain ⟨h0, h1, rfl⟩ := wr_some_iff.1 h
  unfold rd
  split
  · rw [List.getElem?_set]
    have : (k = i) ↔ (i.toNat = k.toNat) := by omega
    simp only [this]
    split
    · have : k.toNat < a.length := by omega
      simp [*]
    · rfl
  · have : k ≠ i := by omega
    simp [this]

/-! ### Loops -/

@[simp] theorem forN_zero (f : Int → σ → Option σ) (i s) : forN f 0 i s = some s := rfl

theorem forC_ge {lo hi : Int} (h : hi ≤ lo) (f : Int → σ → Option σ) (s : σ) :
    forC lo hi f s = some s := by
  have : (hi - lo).toNat = 0 := by omega
  simp [forC, this]

theorem forC_lt {lo hi : Int} (h : lo < hi) (f : Int → σ → Option σ) (s : σ) :
    forC lo hi f s = (f lo s).bind (forC (lo + 1) hi f) := by
  have : (hi - lo).toNat = (hi - (lo + 1)).toNat + 1 := by omega
  unfold forC
  rw [this]
  rfl

theorem forN_inv {f : Int → σ → Option σ} (P : Int → σ → Prop) :
    ∀ (n : Nat) (lo : Int) (s : σ), P lo s →
      (∀ i s, lo ≤ i → i < lo + n → P i s → ∃ s', f i s = some s' ∧ P (i + 1) s') →
      ∃ s', forN f n lo s = some s' ∧ P (lo + n) s'
  | 0, lo, s, h0, _ => ⟨s, rfl, by simpa using h0⟩
  | n + 1, lo, s, h0, hs => by
    obtain ⟨s1, h1, p1⟩ := hs lo s (by omega) (by omega) h0
    obtain ⟨s2, h2, p2⟩ := forN_inv P n (lo + 1) s1 p1
      (fun i s a b p => hs i s (by omega) (by omega) p)
    refine ⟨s2, ?_, ?_⟩
    · simp [forN, h1, h2]
    · have : lo + 1 + (n : Int) = lo + ((n + 1 : Nat) : Int) := by omega
      rwa [this] at p2

/-- Loop-invariant rule for upward loops. -/
theorem forC_inv {lo hi : Int} {f : Int → σ → Option σ} {s : σ} (P : Int → σ → Prop)
    (hle : lo ≤ hi) (h0 : P lo s)
    (hs : ∀ i s, lo ≤ i → i < hi → P i s → ∃ s', f i s = some s' ∧ P (i + 1) s') :
    ∃ s', forC lo hi f s = some s' ∧ P hi s' := by
  have := forN_inv (f := f) P (hi - lo).toNat lo s h0
    (fun i s a b p => hs i s a (by omega) p)
  have e : lo + ((hi - lo).toNat : Int) = hi := by omega
  rwa [e] at this

/-- Invariant rule with natural-number index. -/
theorem forC_inv_nat {n : Nat} {f : Int → σ → Option σ} {s : σ} (P : Nat → σ → Prop)
    (h0 : P 0 s)
    (hs : ∀ (i : Nat) s, i < n → P i s → ∃ s', f i s = some s' ∧ P (i + 1) s') :
    ∃ s', forC 0 (n : Int) f s = some s' ∧ P n s' := by
  have := forC_inv (lo := 0) (hi := n) (f := f) (s := s) (fun i s => P i.toNat s)
    (by omega) (by simpa using h0)
    (fun i s a b p => by
      obtain ⟨s', e, p'⟩ := hs i.toNat s (by omega) p
      refine ⟨s', ?_, ?_⟩
      · rwa [show ((i.toNat : Nat) : Int) = i by omega] at e
      · rwa [show (i + 1).toNat = i.toNat + 1 by omega])
  simpa using this

theorem forN_congr {f g : Int → σ → Option σ} :
    ∀ (n : Nat) (lo : Int) (s : σ), (∀ i s, lo ≤ i → i < lo + n → f i s = g i s) →
      forN f n lo s = forN g n lo s
  | 0, _, _, _ => rfl
  | n + 1, lo, s, h => by
    simp only [forN]
    rw [h lo s (by omega) (by omega)]
    congr 1
    funext s'
    exact forN_congr n (lo + 1) s' (fun i s a b => h i s (by omega) (by omega))

theorem forC_congr {lo hi : Int} {f g : Int → σ → Option σ} {s : σ}
    (h : ∀ i s, lo ≤ i → i < hi → f i s = g i s) : forC lo hi f s = forC lo hi g s :=
  forN_congr _ _ _ (fun i s a b => h i s a (by omega))

/-- A loop over `0..n` is a monadic fold over `List.range n`. -/
theorem forN_eq_foldlM {f : Int → σ → Option σ} :
    ∀ (n a : Nat) (s : σ),
      forN f n (a : Int) s = (List.range' a n).foldlM (fun s (i : Nat) => f (i : Int) s) s
  | 0, _, _ => rfl
  | n + 1, a, s => by
    simp only [forN, List.range'_succ, List.foldlM_cons]
    have : ((a : Int) + 1) = ((a + 1 : Nat) : Int) := by omega
    rw [this]
    have : forN f n ((a + 1 : Nat) : Int)
      = fun s => (List.range' (a+1) n).foldlM (fun s (i : Nat) => f (i : Int) s) s := by
      funext s; exact forN_eq_foldlM n (a + 1) s
    rw [this]; rfl

theorem forC_eq_foldlM {f : Int → σ → Option σ} (n : Nat) (s : σ) :
    forC 0 (n : Int) f s = (List.range n).foldlM (fun s (i : Nat) => f (i : Int) s) s := by
  have := forN_eq_foldlM (f := f) n 0 s
  simp only [forC]
  rw [show ((n : Int) - 0).toNat = n by omega]
  simpa [List.range_eq_range'] using this

theorem forND_inv {f : Int → σ → Option σ} (P : Int → σ → Prop) :
    ∀ (n : Nat) (hi : Int) (s : σ), P (hi + 1) s →
      (∀ i s, hi - n < i → i ≤ hi → P (i + 1) s → ∃ s', f i s = some s' ∧ P i s') →
      ∃ s', forND f n hi s = some s' ∧ P (hi + 1 - n) s'
  | 0, hi, s, h0, _ => ⟨s, rfl, by simpa using h0⟩
  | n + 1, hi, s, h0, hs => by
    obtain ⟨s1, h1, p1⟩ := hs hi s (by omega) (by omega) h0
    obtain ⟨s2, h2, p2⟩ := forND_inv P n (hi - 1) s1 (by simpa using p1)
      (fun i s a b p => hs i s (by omega) (by omega) p)
    refine ⟨s2, ?_, ?_⟩
    · simp [forND, h1, h2]
    · have : hi - 1 + 1 - (n : Int) = hi + 1 - ((n + 1 : Nat) : Int) := by omega
      rwa [this] at p2

/-- Loop-invariant rule for downward loops: `P (i+1)` holds before iteration `i`. -/
theorem forD_inv {lo hi : Int} {f : Int → σ → Option σ} {s : σ} (P : Int → σ → Prop)
    (hle : lo ≤ hi + 1) (h0 : P (hi + 1) s)
    (hs : ∀ i s, lo ≤ i → i ≤ hi → P (i + 1) s → ∃ s', f i s = some s' ∧ P i s') :
    ∃ s', forD hi lo f s = some s' ∧ P lo s' := by
  have := forND_inv (f := f) P (hi - lo + 1).toNat hi s h0
    (fun i s a b p => hs i s (by omega) b p)
  have e : hi + 1 - ((hi - lo + 1).toNat : Int) = lo := by omega
  rwa [e] at this

theorem forEN_inv {f : Int → σ → Option (Except ε σ)} (P : Int → σ → Prop)
    (Q : ε → Prop) :
    ∀ (n : Nat) (lo : Int) (s : σ), P lo s →
      (∀ i s, lo ≤ i → i < lo + n → P i s →
        (∃ s', f i s = some (.ok s') ∧ P (i + 1) s') ∨ (∃ e, f i s = some (.error e) ∧ Q e)) →
      (∃ s', forEN f n lo s = some (.ok s') ∧ P (lo + n) s') ∨
      (∃ e, forEN f n lo s = some (.error e) ∧ Q e)
  | 0, lo, s, h0, _ => .inl ⟨s, rfl, by simpa using h0⟩
  | n + 1, lo, s, h0, hs => by
    rcases hs lo s (by omega) (by omega) h0 with ⟨s1, h1, p1⟩ | ⟨e, h1, q⟩
    · have e1 : lo + 1 + (n : Int) = lo + ((n + 1 : Nat) : Int) := by omega
      rcases forEN_inv P Q n (lo + 1) s1 p1
        (fun i s a b p => hs i s (by omega) (by omega) p) with ⟨s2, h2, p2⟩ | ⟨e, h2, q⟩
      · refine .inl ⟨s2, ?_, ?_⟩
        · simp [forEN, h1, h2]
        · rwa [e1] at p2
      · exact .inr ⟨e, by simp [forEN, h1, h2], q⟩
    · exact .inr ⟨e, by simp [forEN, h1], q⟩

/-- Invariant rule for loops with early return. -/
theorem forE_inv {lo hi : Int} {f : Int → σ → Option (Except ε σ)} {s : σ}
    (P : Int → σ → Prop) (Q : ε → Prop)
    (hle : lo ≤ hi) (h0 : P lo s)
    (hs : ∀ i s, lo ≤ i → i < hi → P i s →
        (∃ s', f i s = some (.ok s') ∧ P (i + 1) s') ∨ (∃ e, f i s = some (.error e) ∧ Q e)) :
    (∃ s', forE lo hi f s = some (.ok s') ∧ P hi s') ∨
    (∃ e, forE lo hi f s = some (.error e) ∧ Q e) := by
  have := forEN_inv (f := f) P Q (hi - lo).toNat lo s h0
    (fun i s a b p => hs i s a (by omega) p)
  have e : lo + ((hi - lo).toNat : Int) = hi := by omega
  rwa [e] at this

/-- Invariant rule for a monadic fold, indexed by the consumed prefix. -/
theorem foldlM_inv {f : σ → α → Option σ} (P : List α → σ → Prop) {l : List α} {s : σ}
    (h0 : P [] s)
    (hs : ∀ pre x suf s, l = pre ++ x :: suf → P pre s →
      ∃ s', f s x = some s' ∧ P (pre ++ [x]) s') :
    ∃ s', l.foldlM f s = some s' ∧ P l s' := by
  suffices H : ∀ (suf pre : List α) (s : σ), l = pre ++ suf → P pre s →
      ∃ s', suf.foldlM f s = some s' ∧ P l s' from H l [] s rfl h0
  intro suf
  induction suf with
  | nil => intro pre s e p; exact ⟨s, rfl, by simpa [e] using p⟩
  | cons x suf ih =>
    intro pre s e p
    obtain ⟨s1, h1, p1⟩ := hs pre x suf s e p
    obtain ⟨s2, h2, p2⟩ := ih (pre ++ [x]) s1 (by simp [e]) p1
    exact ⟨s2, by simp [h1, h2], p2⟩

theorem ite_or {α : Type} {c : Prop} [Decidable c] {a b x : α} (h : (if c then a else b) = x) :
    (c ∧ a = x) ∨ (¬ c ∧ b = x) := by
  by_cases hc : c
  · rw [if_pos hc] at h; exact .inl ⟨hc, h⟩
  · rw [if_neg hc] at h; exact .inr ⟨hc, h⟩

end Verif
