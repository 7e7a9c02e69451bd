/-
Incomplete factorisation with the arithmetic as a parameter: the values in terms of positions.
-/
import Verif.Model.RoundedIlu
import Verif.Proofs.Ilu

namespace Verif
open Model Finset

section
variable {R : Type} [Div R] (F : SolveFpu R) (o col dg : Nat → Nat)

/-- the position strictly right of the diagonal of row `k` that holds column `c` -/
def uPos (k c : Nat) : Option Nat :=
  (List.range' (dg k + 1) (o (k + 1) - (dg k + 1))).find? fun p => col p = c

/-- subtract the product of `l` with entry `(k, c)`, if it is stored -/
def elimStep (f : Nat → R) (l : R) (k c : Nat) (s : R) : R :=
  match uPos o col dg k c with
  | some p => F.msub l (f p) s
  | none => s

/-- the value for column `c` of row `i` after the entries before position `e` were eliminated -/
def elimRow (f : Nat → R) (i e c : Nat) (s : R) : R :=
  (List.range' (o i) (e - o i)).foldl (fun s t => elimStep F o col dg f (f t) (col t) c s) s

/-- row `r` of `f` consists of the values the elimination of `a` produces -/
def RowDoneF (a f : Nat → R) (r : Nat) : Prop :=
  ∀ q, o r ≤ q → q < o (r + 1) → f q =
    if q < dg r then elimRow F o col dg f r q (col q) (a q) / f (dg (col q))
    else elimRow F o col dg f r (dg r) (col q) (a q)

/-- row `i` after the entries before position `e` were eliminated; `f0` the values before -/
structure RowPartF (a f0 f : Nat → R) (i e : Nat) : Prop where
  off : ∀ q, q < o i ∨ o (i + 1) ≤ q → f q = f0 q
  left : ∀ q, o i ≤ q → q < e → f q = elimRow F o col dg f i q (col q) (a q) / f (dg (col q))
  right : ∀ q, e ≤ q → q < o (i + 1) → f q = elimRow F o col dg f i e (col q) (a q)

variable {F o col dg} {n nnz : Nat}

theorem uPos_some {k c p : Nat} (h : uPos o col dg k c = some p) :
    dg k < p ∧ p < o (k + 1) ∧ col p = c := by
  unfold uPos at h
  have h1 := List.mem_of_find?_eq_some h
  have h2 := List.find?_some h
  rw [List.mem_range'_1] at h1
  refine ⟨by omega, by omega, by simpa using h2⟩

theorem uPos_none {k c : Nat} (h : uPos o col dg k c = none) (p : Nat) (h1 : dg k < p)
    (h2 : p < o (k + 1)) : col p ≠ c := by
  unfold uPos at h
  rw [List.find?_eq_none] at h
  have := h p (by rw [List.mem_range'_1]; omega)
  simpa using this

theorem uPos_le (h : IluPat n nnz o col dg) {k c : Nat} (hk : k < n) (hc : c ≤ k) :
    uPos o col dg k c = none := by
  by_contra hne
  obtain ⟨p, hp⟩ := Option.ne_none_iff_exists'.1 hne
  obtain ⟨h1, h2, h3⟩ := uPos_some hp
  have := h.up k p hk h1 h2
  omega

theorem elimStep_id (h : IluPat n nnz o col dg) {f : Nat → R} {l : R} {k c : Nat} (hk : k < n)
    (hc : c ≤ k) (s : R) : elimStep F o col dg f l k c s = s := by
  unfold elimStep
  rw [uPos_le h hk hc]

theorem elimStep_congr {f g : Nat → R} {k : Nat} (e : ∀ q, q < o (k + 1) → f q = g q) (l : R)
    (c : Nat) (s : R) : elimStep F o col dg f l k c s = elimStep F o col dg g l k c s := by
  unfold elimStep
  cases hp : uPos o col dg k c with
  | none => rfl
  | some p =>
    show F.msub l (f p) s = F.msub l (g p) s
    rw [e p (uPos_some hp).2.1]

theorem elimRow_congr (h : IluPat n nnz o col dg) {f g : Nat → R} {i e : Nat} (hi : i < n)
    (he : e ≤ dg i) (h1 : ∀ q, q < e → f q = g q) (h0 : ∀ q, q < o i → f q = g q) (c : Nat) (s : R) :
    elimRow F o col dg f i e c s = elimRow F o col dg g i e c s := by
  unfold elimRow
  have : ∀ (L : List Nat) (s : R), (∀ t ∈ L, o i ≤ t ∧ t < e) →
      L.foldl (fun s t => elimStep F o col dg f (f t) (col t) c s) s
        = L.foldl (fun s t => elimStep F o col dg g (g t) (col t) c s) s := by
    intro L
    induction L with
    | nil => intro s _; rfl
    | cons t L ih =>
      intro s hL
      have ht := hL t List.mem_cons_self
      have hc := h.low_lt hi ht.1 (by omega)
      have hle := h.le (i := col t + 1) (j := i) (by omega) (by omega)
      rw [List.foldl_cons, List.foldl_cons, h1 t ht.2,
        elimStep_congr (fun q hq => h0 q (by omega)), ih _ (fun t' ht' => hL t' (List.mem_cons_of_mem _ ht'))]
  apply this
  intro t ht
  rw [List.mem_range'_1] at ht
  omega

theorem elimRow_succ {f : Nat → R} {i e : Nat} (he : o i ≤ e) (c : Nat) (s : R) :
    elimRow F o col dg f i (e + 1) c s
      = elimStep F o col dg f (f e) (col e) c (elimRow F o col dg f i e c s) := by
  unfold elimRow
  rw [show e + 1 - o i = (e - o i) + 1 by omega, List.range'_concat, List.foldl_append]
  simp only [List.foldl_cons, List.foldl_nil, one_mul]
  rw [show o i + (e - o i) = e by omega]

theorem elimRow_zero {f : Nat → R} {i : Nat} (c : Nat) (s : R) :
    elimRow F o col dg f i (o i) c s = s := by
  unfold elimRow
  simp

theorem RowPartF.done {a f0 f : Nat → R} {i : Nat} (hp : RowPartF F o col dg a f0 f i (dg i)) :
    RowDoneF F o col dg a f i := by
  intro q h1 h2
  by_cases hq : q < dg i
  · rw [if_pos hq]
    exact hp.left q h1 hq
  · rw [if_neg hq]
    exact hp.right q (by omega) h2

theorem RowDoneF.congr (h : IluPat n nnz o col dg) {a f g : Nat → R} {r i : Nat} (hr : r < i) (hi : i ≤ n)
    (e : ∀ q, q < o i → f q = g q) (hd : RowDoneF F o col dg a f r) : RowDoneF F o col dg a g r := by
  have hle := h.le (i := r + 1) (j := i) (by omega) hi
  have hdr := h.dgr r (by omega)
  have hdl := h.dgl r (by omega)
  intro q h1 h2
  rw [← e q (by omega), hd q h1 h2]
  by_cases hq : q < dg r
  · have hc := h.low_lt (by omega) h1 hq
    have hle2 := h.le (i := col q + 1) (j := i) (by omega) hi
    have := h.dgr (col q) (by omega)
    rw [if_pos hq, if_pos hq, elimRow_congr h (by omega) (le_of_lt hq) (fun q' hq' => e q' (by omega))
      (fun q' hq' => e q' (by omega)), e (dg (col q)) (by omega)]
  · rw [if_neg hq, if_neg hq, elimRow_congr h (by omega) (le_refl _) (fun q' hq' => e q' (by omega))
      (fun q' hq' => e q' (by omega))]

end

/-! ### the loops -/

section loops
variable {R : Type} [Div R] {F : SolveFpu R} {n nnz : Nat} {o col dg : Nat → Nat} {base : Int}
  {ptr ind : List Int}

/-- elimination of entry `j` of row `i` with row `k` -/
theorem iluElimF_loop (h : IluPat n nnz o col dg) (ha : IluArr n nnz o col base ptr ind) {i j : Nat}
    (hi : i < n) {map : List Int} (hm : MapOk n col (o i) (o (i + 1)) map) (hj1 : o i ≤ j) (hj2 : j < dg i)
    {v : List R} {f : Nat → R} (hv : Rep v nnz f) :
    ∃ v', forC ((dg (col j) : Int) + 1) (o (col j + 1) : Int) (iluElimF F base ind map j) v = some v' ∧
      Rep v' nnz (fun q => if o i ≤ q ∧ q < o (i + 1) then elimStep F o col dg f (f j) (col j) (col q) (f q)
        else f q) := by
  have hk : col j < i := h.low_lt hi hj1 hj2
  have hkn : col j < n := by omega
  have hdr := h.dgr (col j) hkn
  have hle := h.le (i := col j + 1) (j := i) (by omega) (by omega)
  have hdi := h.dgr i hi
  have ho1 : 0 < o i := by
    have := h.dgl (col j) hkn
    omega
  obtain ⟨mp, k1, k2, k3⟩ := hm
  let st : Nat → Nat → R := fun t q =>
    match (List.range' (dg (col j) + 1) t).find? fun p => col p = col q with
    | some p => F.msub (f j) (f p) (f q)
    | none => f q
  obtain ⟨v', e, hp⟩ := forC_inv_off (a := (dg (col j) : Int) + 1) (b := (o (col j + 1) : Int))
    (n := o (col j + 1) - (dg (col j) + 1)) (f := iluElimF F base ind map j) (s := v)
    (fun t v => Rep v nnz (fun q => if o i ≤ q ∧ q < o (i + 1) then st t q else f q)) (by omega)
    (by simpa [st] using hv) (by
      intro t s ht hs
      have hpn : dg (col j) + 1 + t < nnz := h.lt_nnz (i := col j) hkn (by omega)
      have hup := h.up (col j) (dg (col j) + 1 + t) hkn (by omega) (by omega)
      have hcn := h.rng (col j) (dg (col j) + 1 + t) hkn (by have := h.dgl (col j) hkn; omega) (by omega)
      have hfresh : ∀ q, col q = col (dg (col j) + 1 + t) → st t q = f q ∧
          st (t + 1) q = F.msub (f j) (f (dg (col j) + 1 + t)) (f q) := by
        intro q hq
        have hn : (List.range' (dg (col j) + 1) t).find? (fun p => col p = col q) = none := by
          rw [List.find?_eq_none]
          intro p hp
          rw [List.mem_range'_1] at hp
          have : col p ≠ col q := by
            intro hc
            have := h.inj (col j) p (dg (col j) + 1 + t) hkn (by have := h.dgl (col j) hkn; omega)
              (by omega) (by have := h.dgl (col j) hkn; omega) (by omega) (by rw [hc, hq])
            omega
          simpa using this
        constructor
        · simp only [st, hn]
        · simp only [st]
          rw [List.range'_concat, List.find?_append, hn]
          simp [hq]
      have hold : ∀ q, col q ≠ col (dg (col j) + 1 + t) → st (t + 1) q = st t q := by
        intro q hq
        simp only [st]
        rw [List.range'_concat, List.find?_append]
        have : ¬ col (dg (col j) + 1 + t) = col q := fun e => hq e.symm
        simp [this]
      unfold iluElimF
      rw [show (dg (col j) : Int) + 1 + t = ((dg (col j) + 1 + t : Nat) : Int) by push_cast; rfl,
        ha.ind _ hpn]
      simp only [Option.bind_eq_bind, Option.bind_some]
      rw [show base + (col (dg (col j) + 1 + t) : Int) - base = (col (dg (col j) + 1 + t) : Int) by omega,
        k1.rd_nat hcn]
      simp only [Option.bind_some]
      by_cases hex : ∃ q, o i ≤ q ∧ q < o (i + 1) ∧ col q = col (dg (col j) + 1 + t)
      · obtain ⟨q, h1, h2, h3⟩ := hex
        rw [← h3, k2 q h1 h2, if_pos (by omega), hs.rd_nat (h.lt_nnz hi h2), hs.rd_nat
          (h.lt_nnz hi (by omega : j < o (i + 1))), hs.rd_nat hpn]
        simp only [Option.bind_some]
        rw [if_pos ⟨hj1, by omega⟩, if_neg (by omega), if_pos ⟨h1, h2⟩, (hfresh q h3).1]
        have hjs : st t j = f j := by
          have hn : (List.range' (dg (col j) + 1) t).find? (fun p => col p = col j) = none := by
            rw [List.find?_eq_none]
            intro p hp
            rw [List.mem_range'_1] at hp
            have := h.up (col j) p hkn (by omega) (by omega)
            have : col p ≠ col j := by omega
            simpa using this
          simp only [st, hn]
        rw [hjs]
        obtain ⟨b, e, hb⟩ := hs.wr_nat (F.msub (f j) (f (dg (col j) + 1 + t)) (f q)) (h.lt_nnz hi h2)
        refine ⟨b, e, hb.congr ?_⟩
        intro r hr
        by_cases hrq : r = q
        · subst hrq
          rw [Function.update_self, if_pos ⟨h1, h2⟩, (hfresh r h3).2]
        · rw [Function.update_of_ne hrq]
          by_cases hri : o i ≤ r ∧ r < o (i + 1)
          · rw [if_pos hri, if_pos hri, hold]
            intro hc
            exact hrq (h.inj i r q hi hri.1 hri.2 h1 h2 (by rw [hc, h3]))
          · rw [if_neg hri, if_neg hri]
      · rw [k3 _ hcn (fun q h1 h2 h3 => hex ⟨q, h1, h2, h3⟩), if_neg (by simp)]
        refine ⟨s, rfl, hs.congr ?_⟩
        intro r hr
        by_cases hri : o i ≤ r ∧ r < o (i + 1)
        · rw [if_pos hri, if_pos hri, hold]
          intro hc
          exact hex ⟨r, hri.1, hri.2, hc⟩
        · rw [if_neg hri, if_neg hri])
  exact ⟨v', e, hp⟩

/-- one step of the loop over `j` -/
theorem iluPivF_step (nz : R → Bool) (h : IluPat n nnz o col dg)
    (ha : IluArr n nnz o col base ptr ind) {i j : Nat} (hi : i < n) {map diag : List Int}
    (hm : MapOk n col (o i) (o (i + 1)) map) (hdiag : ∀ r : Nat, r < i → rd diag (r : Int) = some (dg r : Int))
    (hj1 : o i ≤ j) (hj2 : j < dg i) {a f0 f : Nat → R} {v : List R} (hv : Rep v nnz f)
    (hp : RowPartF F o col dg a f0 f i j) (hpiv : ∀ r, r < i → nz (f0 (dg r)) = false) (k : Option Int) :
    ∃ v' f', iluPivF F nz base ptr ind diag map i j (v, k) = some (.ok (v', some (col j : Int))) ∧
      Rep v' nnz f' ∧ RowPartF F o col dg a f0 f' i (j + 1) := by
  have hk : col j < i := h.low_lt hi hj1 hj2
  have hkn : col j < n := by omega
  have hdi := h.dgr i hi
  have hjn : j < nnz := h.lt_nnz hi (by omega)
  have hdn : dg (col j) < nnz := h.lt_nnz hkn (h.dgr _ hkn)
  have hdk := h.dgr (col j) hkn
  have hle := h.le (i := col j + 1) (j := i) (by omega) (by omega)
  have hfd : f (dg (col j)) = f0 (dg (col j)) := hp.off _ (.inl (by omega))
  unfold iluPivF
  rw [ha.ind j hjn]
  simp only [Option.bind_eq_bind, Option.bind_some]
  rw [show base + (col j : Int) - base = (col j : Int) by omega, if_pos (by omega), hdiag _ hk]
  simp only [Option.bind_some]
  rw [hv.rd_nat hdn]
  simp only [Option.bind_some]
  rw [hfd, hpiv _ hk, if_neg (by simp), hv.rd_nat hjn]
  simp only [Option.bind_some]
  obtain ⟨v1, e1, hv1⟩ := hv.wr_nat (f j / f0 (dg (col j))) hjn
  rw [e1]
  simp only [Option.bind_some]
  have := ha.ptr (col j + 1) (by omega)
  rw [show ((col j + 1 : Nat) : Int) = (col j : Int) + 1 by push_cast; rfl] at this
  rw [this]
  simp only [Option.bind_some]
  rw [show base + (o (col j + 1) : Int) - base = (o (col j + 1) : Int) by omega]
  obtain ⟨v2, e2, hv2⟩ := iluElimF_loop (F := F) h ha hi hm hj1 hj2 hv1
  rw [e2]
  refine ⟨v2, _, rfl, hv2, ?_⟩
  generalize hf' : (fun q => if o i ≤ q ∧ q < o (i + 1) then
    elimStep F o col dg (Function.update f j (f j / f0 (dg (col j))))
      (Function.update f j (f j / f0 (dg (col j))) j) (col j) (col q)
      (Function.update f j (f j / f0 (dg (col j))) q)
    else Function.update f j (f j / f0 (dg (col j))) q) = f'
  have hoff : ∀ q, q < o i ∨ o (i + 1) ≤ q → f' q = f q := by
    intro q hq
    rw [← hf']
    dsimp only
    rw [if_neg (by omega), Function.update_of_ne (by omega)]
  have hkeep : ∀ t, o i ≤ t → t < j → f' t = f t := by
    intro t h1 h2
    have := h.low i t j hi h1 h2 (by omega)
    rw [← hf']
    dsimp only
    rw [if_pos ⟨h1, by omega⟩, elimStep_id h hkn (by omega), Function.update_of_ne (by omega)]
  have hnew : f' j = f j / f0 (dg (col j)) := by
    rw [← hf']
    dsimp only
    rw [if_pos ⟨hj1, by omega⟩, elimStep_id h hkn (le_refl _), Function.update_self]
  have hright : ∀ q, j < q → q < o (i + 1) → f' q = elimStep F o col dg f' (f' j) (col j) (col q) (f q) := by
    intro q h1 h2
    rw [hnew]
    rw [elimStep_congr (f := f') (g := Function.update f j (f j / f0 (dg (col j)))) (fun p hp' => by
      rw [hoff p (.inl (by omega)), Function.update_of_ne (by omega)])]
    rw [← hf']
    dsimp only
    rw [if_pos ⟨by omega, h2⟩, Function.update_self, Function.update_of_ne (by omega)]
  have hrow : ∀ e, e ≤ j → ∀ c s, elimRow F o col dg f' i e c s = elimRow F o col dg f i e c s := by
    intro e he c s
    refine elimRow_congr h hi (by omega) (fun q hq => ?_) (fun q hq => hoff q (.inl hq)) c s
    by_cases hqo : q < o i
    · exact hoff q (.inl hqo)
    · exact hkeep q (by omega) (by omega)
  have hd' : ∀ q, o i ≤ q → q ≤ j → f' (dg (col q)) = f (dg (col q)) := by
    intro q h1 h2
    have hq := h.low_lt hi h1 (by omega)
    have := h.dgr (col q) (by omega)
    have := h.le (i := col q + 1) (j := i) (by omega) (by omega)
    exact hoff _ (.inl (by omega))
  refine ⟨?_, ?_, ?_⟩
  · intro q hq
    rw [hoff q hq]
    exact hp.off q hq
  · intro q h1 h2
    rw [hrow q (by omega), hd' q h1 (by omega)]
    by_cases hq : q = j
    · subst hq
      rw [hnew, hp.right q (le_refl _) (by omega), hfd]
    · rw [hkeep q h1 (by omega)]
      exact hp.left q h1 (by omega)
  · intro q h1 h2
    rw [elimRow_succ hj1, hrow j (le_refl _), ← hp.right q (by omega) h2]
    exact hright q (by omega) h2

/-- the state before row `i` -/
structure IluInvF (F : SolveFpu R) (nz : R → Bool) (n nnz : Nat) (o col dg : Nat → Nat) (a : Nat → R) (i : Nat)
    (v : List R) (diag : List Int) (f : Nat → R) : Prop where
  rep : Rep v nnz f
  dlen : diag.length = n
  diag : ∀ r : Nat, r < i → rd diag (r : Int) = some (dg r : Int)
  done : ∀ r, r < i → RowDoneF F o col dg a f r
  piv : ∀ r, r < i → nz (f (dg r)) = false
  rest : ∀ q, o i ≤ q → f q = a q

/-- the factorisation broke down: a pivot is near zero -/
def IluBreakF (F : SolveFpu R) (nz : R → Bool) (n nnz : Nat) (o col dg : Nat → Nat) (a : Nat → R) (v : List R)
    (diag : List Int) : Prop :=
  v.length = nnz ∧ diag.length = n ∧ ∃ r f, r < n ∧ Rep v nnz f ∧ (∀ k, k ≤ r → RowDoneF F o col dg a f k) ∧
    (∀ k, k < r → nz (f (dg k)) = false) ∧ nz (f (dg r)) = true

theorem iluRowF_spec (nz : R → Bool) (h : IluPat n nnz o col dg)
    (ha : IluArr n nnz o col base ptr ind) {i : Nat} (hi : i < n) {a f0 : Nat → R} {s : IluSt R}
    (hs : IluInvF F nz n nnz o col dg a i s.v s.diag f0) (hmap : Rep s.map n (fun _ => 0)) :
    (∃ s' f, iluRowF F nz base ptr ind i s = some (.ok s') ∧
      IluInvF F nz n nnz o col dg a (i + 1) s'.v s'.diag f ∧ Rep s'.map n (fun _ => 0)) ∨
    (∃ e, iluRowF F nz base ptr ind i s = some (.error e) ∧ IluBreakF F nz n nnz o col dg a e.1 e.2) := by
  have hmono := h.mono i hi
  have hdl := h.dgl i hi
  have hdr := h.dgr i hi
  have hdn := h.lt_nnz hi hdr
  unfold iluRowF
  have p1 := ha.ptr i (by omega)
  have p2 := ha.ptr (i + 1) (by omega)
  rw [show ((i + 1 : Nat) : Int) = (i : Int) + 1 by push_cast; rfl] at p2
  rw [p1, p2]
  simp only [Option.bind_eq_bind, Option.bind_some]
  rw [show base + (o i : Int) - base = (o i : Int) by omega,
    show base + (o (i + 1) : Int) - base = (o (i + 1) : Int) by omega]
  obtain ⟨map, e1, hm⟩ := iluMap_loop h ha hi (map := s.map)
    ⟨_, hmap, fun q h1 h2 => by omega, fun _ _ _ => rfl⟩
  rw [e1]
  simp only [Option.bind_some]
  have hstart : RowPartF F o col dg a f0 f0 i (o i) :=
    ⟨fun _ _ => rfl, fun q h1 h2 => by omega, fun q h1 h2 => by rw [hs.rest q h1, elimRow_zero]⟩
  rcases forE_inv (lo := (o i : Int)) (hi := (o (i + 1) : Int)) (f := iluPivF F nz base ptr ind s.diag map i)
    (s := (s.v, s.k)) (fun q t => ∃ j : Nat, q = j ∧ o i ≤ j ∧ j ≤ dg i ∧ ∃ f, Rep t.1 nnz f ∧
      RowPartF F o col dg a f0 f i j)
    (fun e => ∃ v f, e = .brk (dg i : Int) (i : Int) v ∧ Rep v nnz f ∧ RowPartF F o col dg a f0 f i (dg i))
    (by omega) ⟨o i, rfl, le_refl _, hdl, f0, hs.rep, hstart⟩ (by
      rintro q ⟨v, k⟩ h1 h2 ⟨j, rfl, h3, h4, f, h5, h6⟩
      by_cases hj : j = dg i
      · right
        subst hj
        refine ⟨_, ?_, v, f, rfl, h5, h6⟩
        unfold iluPivF
        rw [ha.ind _ hdn]
        simp only [Option.bind_eq_bind, Option.bind_some]
        rw [h.dgc i hi, show base + (i : Int) - base = (i : Int) by omega, if_neg (by omega)]
      · left
        obtain ⟨v', f', e, k1, k2⟩ := iluPivF_step nz h ha hi hm hs.diag h3 (by omega) h5 h6 hs.piv k
        exact ⟨_, e, j + 1, by push_cast; rfl, by omega, by omega, f', k1, k2⟩)
    with ⟨s', e, j, h1, h2, h3, -⟩ | ⟨e, he, v, f, rfl, hv, hp⟩
  · omega
  rw [he]
  simp only [Option.bind_some]
  have hdone : RowDoneF F o col dg a f i := hp.done
  have hprev : ∀ r, r < i → RowDoneF F o col dg a f r := fun r hr =>
    (hs.done r hr).congr h hr (by omega) (fun q hq => (hp.off q (.inl hq)).symm)
  have hpiv : ∀ r, r < i → nz (f (dg r)) = false := fun r hr => by
    have h1 := h.dgr r (by omega)
    have h2 := h.le (i := r + 1) (j := i) (by omega) (by omega)
    rw [hp.off (dg r) (.inl (by omega))]
    exact hs.piv r hr
  have hall : ∀ r, r ≤ i → RowDoneF F o col dg a f r := by
    intro r hr
    by_cases hri : r = i
    · subst hri; exact hdone
    · exact hprev r (by omega)
  unfold iluPivot
  rw [wr_ofNat (by rw [hs.dlen]; exact hi)]
  simp only [Option.bind_eq_bind, Option.bind_some]
  rw [if_neg (by simp), hv.rd_nat hdn]
  simp only [Option.bind_some]
  by_cases hnz : nz (f (dg i)) = true
  · right
    rw [if_pos hnz]
    exact ⟨_, rfl, hv.1, by simp [hs.dlen], i, f, hi, hv, hall, hpiv, hnz⟩
  · left
    rw [if_neg hnz]
    obtain ⟨map', e2, hm2⟩ := iluUnmap_loop h ha hi hm
    rw [e2]
    refine ⟨_, f, rfl, ⟨hv, by simp [hs.dlen], ?_, fun r hr => hall r (by omega), ?_, ?_⟩, hm2⟩
    · intro r hr
      dsimp only
      rw [rd_ofNat, List.getElem?_set]
      by_cases hri : i = r
      · subst hri
        rw [if_pos rfl, if_pos (by rw [hs.dlen]; exact hi)]
      · rw [if_neg hri, ← rd_ofNat]
        exact hs.diag r (by omega)
    · intro r hr
      by_cases hri : r = i
      · subst hri; simpa using hnz
      · exact hpiv r (by omega)
    · intro q hq
      rw [hp.off q (.inr hq)]
      exact hs.rest q (by omega)

theorem ilu0FactF_spec (nz : R → Bool) (h : IluPat n nnz o col dg)
    (ha : IluArr n nnz o col base ptr ind) {a : Nat → R} {v : List R} (hv : Rep v nnz a) {diag : List Int}
    (hd : diag.length = n) :
    (∃ v' diag' f, ilu0FactF F nz n base diag v ptr ind = some (.success, v', diag') ∧
      IluInvF F nz n nnz o col dg a n v' diag' f) ∨
    (∃ v' diag', ilu0FactF F nz n base diag v ptr ind = some (.numericalError, v', diag') ∧
      IluBreakF F nz n nnz o col dg a v' diag') := by
  unfold ilu0FactF
  rcases forE_inv (lo := 0) (hi := (n : Int)) (f := iluRowF F nz base ptr ind)
    (s := ⟨v, diag, List.replicate (n : Int).toNat 0, none⟩)
    (fun q t => ∃ i : Nat, q = i ∧ i ≤ n ∧ ∃ f, IluInvF F nz n nnz o col dg a i t.v t.diag f ∧
      Rep t.map n (fun _ => 0))
    (fun e => IluBreakF F nz n nnz o col dg a e.1 e.2) (by omega)
    ⟨0, rfl, by omega, a, ⟨hv, hd, fun r hr => by omega, fun r hr => by omega, fun r hr => by omega,
      fun _ _ => rfl⟩, by simp, fun k hk => by simp [hk]⟩ (by
      rintro q s h1 h2 ⟨i, rfl, h3, f, h4, h5⟩
      rcases iluRowF_spec nz h ha (by omega : i < n) h4 h5 with ⟨s', f', e, k1, k2⟩ | ⟨e, h6, h7⟩
      · exact .inl ⟨s', e, i + 1, by push_cast; rfl, by omega, f', k1, k2⟩
      · exact .inr ⟨e, h6, h7⟩)
    with ⟨s', e, i, h1, h2, f, h3, -⟩ | ⟨e, he, h1⟩
  · have : i = n := by omega
    subst this
    rw [e]
    exact .inl ⟨_, _, f, rfl, h3⟩
  · rw [he]
    exact .inr ⟨_, _, rfl, h1⟩

/-! ### the triangular solves -/

/-- `s` minus the products of the positions `lo .. hi` with the components of `g`, in order -/
def subRow (F : SolveFpu R) (col : Nat → Nat) (f g : Nat → R) (lo hi : Nat) (s : R) : R :=
  (List.range' lo (hi - lo)).foldl (fun s q => F.msub (f q) (g (col q)) s) s

theorem subRow_succ (f g : Nat → R) {lo hi : Nat} (h : lo ≤ hi) (s : R) :
    subRow F col f g lo (hi + 1) s = F.msub (f hi) (g (col hi)) (subRow F col f g lo hi s) := by
  unfold subRow
  rw [show hi + 1 - lo = (hi - lo) + 1 by omega, List.range'_concat, List.foldl_append]
  simp only [List.foldl_cons, List.foldl_nil, one_mul]
  rw [show lo + (hi - lo) = hi by omega]

theorem subRow_congr {f g g' : Nat → R} {lo hi : Nat}
    (e : ∀ q, lo ≤ q → q < hi → g (col q) = g' (col q)) (s : R) :
    subRow F col f g lo hi s = subRow F col f g' lo hi s := by
  unfold subRow
  have : ∀ (L : List Nat) (s : R), (∀ q ∈ L, lo ≤ q ∧ q < hi) →
      L.foldl (fun s q => F.msub (f q) (g (col q)) s) s = L.foldl (fun s q => F.msub (f q) (g' (col q)) s) s := by
    intro L
    induction L with
    | nil => intro s _; rfl
    | cons t L ih =>
      intro s hL
      have ht := hL t List.mem_cons_self
      rw [List.foldl_cons, List.foldl_cons, e t ht.1 ht.2, ih _ (fun q hq => hL q (List.mem_cons_of_mem _ hq))]
  apply this
  intro q hq
  rw [List.mem_range'_1] at hq
  omega

theorem subRow_nil (f g : Nat → R) (lo : Nat) (s : R) : subRow F col f g lo lo s = s := by
  simp [subRow]

theorem iluSubF_loop {lo hi : Nat} (hle : lo ≤ hi) (hn : hi ≤ nnz) (hc : ∀ q, lo ≤ q → q < hi → col q < n)
    (ha : IluArr n nnz o col base ptr ind) {v x : List R} {f g : Nat → R} (hv : Rep v nnz f) {len : Nat}
    (hlen : n ≤ len) (hx : Rep x len g) (s : R) :
    forC (lo : Int) (hi : Int) (iluSubF F base v ind x) s = some (subRow F col f g lo hi s) := by
  obtain ⟨s', e, h⟩ := forC_inv_off (a := (lo : Int)) (b := (hi : Int)) (n := hi - lo)
    (f := iluSubF F base v ind x) (s := s) (fun t r => r = subRow F col f g lo (lo + t) s)
    (by omega) (by simp [subRow_nil]) (by
      rintro t r ht rfl
      unfold iluSubF
      have := hc (lo + t) (by omega) (by omega)
      rw [show (lo : Int) + t = ((lo + t : Nat) : Int) by push_cast; rfl, ha.ind _ (by omega),
        hv.rd_nat (by omega)]
      simp only [Option.bind_eq_bind, Option.bind_some]
      rw [show base + (col (lo + t) : Int) - base = (col (lo + t) : Int) by omega, hx.rd_nat (by omega)]
      refine ⟨_, rfl, ?_⟩
      rw [show lo + (t + 1) = lo + t + 1 by omega, subRow_succ _ _ (by omega)])
  rw [e, h, show lo + (hi - lo) = hi by omega]

/-- the solves: `y` solves the unit lower system, `g` the upper one -/
theorem iluSolveF_spec (nz : R → Bool) (h : IluPat n nnz o col dg)
    (ha : IluArr n nnz o col base ptr ind) {v : List R} {f : Nat → R} (hv : Rep v nnz f) {diag : List Int}
    (hdiag : ∀ r : Nat, r < n → rd diag (r : Int) = some (dg r : Int))
    (hpiv : ∀ r, r < n → nz (f (dg r)) = false) {x b : List R} {xf bf : Nat → R} (hx : n ≤ x.length)
    (hb : n ≤ b.length) (hxr : Rep x x.length xf) (hbr : Rep b b.length bf) :
    ∃ (x' : List R) (y g : Nat → R), iluSolveF F nz n base diag v ptr ind x b = some x' ∧ Rep x' x.length g ∧
      (∀ k, n ≤ k → x'[k]? = x[k]?) ∧
      (∀ i, i < n → y i = subRow F col f y (o i) (dg i) (bf i)) ∧
      (∀ i, i < n → g i = subRow F col f g (dg i + 1) (o (i + 1)) (y i) / f (dg i)) := by
  have hrn : ∀ i, i < n → o (i + 1) ≤ nnz := fun i hi => by
    rw [← h.last]; exact h.le (by omega) (le_refl _)
  unfold iluSolveF
  obtain ⟨x1, e1, y, h1, h2, h3⟩ := forC_inv_nat (n := n) (f := iluFwdF F base diag v ptr ind b) (s := x)
    (fun i s => ∃ y, Rep s x.length y ∧ (∀ k, i ≤ k → k < x.length → y k = xf k) ∧
      ∀ r, r < i → y r = subRow F col f y (o r) (dg r) (bf r))
    ⟨_, hxr, fun _ _ _ => rfl, fun r hr => by omega⟩ (by
      rintro i s hi ⟨y, k1, k2, k3⟩
      have hdl := h.dgl i hi
      have hdr := h.dgr i hi
      have hrr := hrn i hi
      unfold iluFwdF
      rw [hbr.rd_nat (by omega), ha.ptr i (by omega), hdiag i hi]
      simp only [Option.bind_eq_bind, Option.bind_some]
      rw [show base + (o i : Int) - base = (o i : Int) by omega,
        iluSubF_loop hdl (by omega) (fun q h1 h2 => h.rng i q hi h1 (by omega)) ha hv hx k1]
      simp only [Option.bind_some]
      obtain ⟨s', e, k4⟩ := k1.wr_nat (subRow F col f y (o i) (dg i) (bf i)) (by omega : i < x.length)
      have hun : ∀ r, r ≤ i → ∀ w, subRow F col f (Function.update y i w) (o r) (dg r) (bf r)
          = subRow F col f y (o r) (dg r) (bf r) := by
        intro r hr w
        apply subRow_congr
        intro q hq1 hq2
        have := h.low_lt (by omega) hq1 hq2
        rw [Function.update_of_ne (by omega)]
      refine ⟨s', e, _, k4, ?_, ?_⟩
      · intro k hk hk2
        rw [Function.update_of_ne (by omega)]
        exact k2 k (by omega) hk2
      · intro r hr
        rw [hun r (by omega)]
        by_cases hri : r = i
        · subst hri
          rw [Function.update_self]
        · rw [Function.update_of_ne hri]
          exact k3 r (by omega))
  rw [e1]
  simp only [Option.bind_eq_bind, Option.bind_some]
  obtain ⟨x2, e2, g, h4, h5, h6⟩ := forD_inv_nat (m := n) (f := iluBwdF F nz base diag v ptr ind) (s := x1)
    (fun i s => ∃ g, Rep s x.length g ∧ (∀ k, k < i ∨ n ≤ k → k < x.length → g k = y k) ∧
      ∀ r, i ≤ r → r < n → g r = subRow F col f g (dg r + 1) (o (r + 1)) (y r) / f (dg r))
    ⟨y, h1, fun _ _ _ => rfl, fun r hr hr2 => by omega⟩ (by
      rintro i s hi ⟨g, k1, k2, k3⟩
      have hdl := h.dgl i hi
      have hdr := h.dgr i hi
      have hrr := hrn i hi
      unfold iluBwdF
      have p2 := ha.ptr (i + 1) (by omega)
      rw [show ((i + 1 : Nat) : Int) = (i : Int) + 1 by push_cast; rfl] at p2
      rw [hdiag i hi, p2]
      simp only [Option.bind_eq_bind, Option.bind_some]
      rw [show base + (o (i + 1) : Int) - base = (o (i + 1) : Int) by omega]
      obtain ⟨s1, d1, d2⟩ := forC_inv_off (a := (dg i : Int) + 1) (b := (o (i + 1) : Int))
        (n := o (i + 1) - (dg i + 1)) (f := iluBwdSubF F base v ind i) (s := s)
        (fun t s => Rep s x.length (Function.update g i
          (subRow F col f g (dg i + 1) (dg i + 1 + t) (g i)))) (by omega)
        (by simpa [subRow_nil] using k1) (by
          intro t s ht hs
          have hup := h.up i (dg i + 1 + t) hi (by omega) (by omega)
          have hcn := h.rng i (dg i + 1 + t) hi (by omega) (by omega)
          unfold iluBwdSubF iluSubF
          rw [show (dg i : Int) + 1 + t = ((dg i + 1 + t : Nat) : Int) by push_cast; rfl,
            hs.rd_nat (by omega : i < x.length), ha.ind _ (by omega), hv.rd_nat (by omega)]
          simp only [Option.bind_eq_bind, Option.bind_some]
          rw [show base + (col (dg i + 1 + t) : Int) - base = (col (dg i + 1 + t) : Int) by omega,
            hs.rd_nat (by omega)]
          simp only [Option.bind_some]
          rw [Function.update_self, Function.update_of_ne (by omega)]
          obtain ⟨s', e, k4⟩ := hs.wr_nat (F.msub (f (dg i + 1 + t)) (g (col (dg i + 1 + t)))
            (subRow F col f g (dg i + 1) (dg i + 1 + t) (g i))) (by omega : i < x.length)
          refine ⟨s', e, k4.congr ?_⟩
          intro k hk
          by_cases hki : k = i
          · subst hki
            rw [Function.update_self, Function.update_self,
              show dg k + 1 + (t + 1) = dg k + 1 + t + 1 by omega, subRow_succ _ _ (by omega)]
          · rw [Function.update_of_ne hki, Function.update_of_ne hki, Function.update_of_ne hki])
      rw [show dg i + 1 + (o (i + 1) - (dg i + 1)) = o (i + 1) by omega] at d2
      rw [d1]
      simp only [Option.bind_some]
      rw [hv.rd_nat (by omega)]
      simp only [Option.bind_some]
      rw [if_pos (hpiv i hi), d2.rd_nat (by omega : i < x.length)]
      simp only [Option.bind_some]
      rw [Function.update_self]
      obtain ⟨s2, d3, d4⟩ := d2.wr_nat (subRow F col f g (dg i + 1) (o (i + 1)) (g i) / f (dg i))
        (by omega : i < x.length)
      have hsame : ∀ r, i ≤ r → r < n → ∀ w s,
          subRow F col f (Function.update g i w) (dg r + 1) (o (r + 1)) s
            = subRow F col f g (dg r + 1) (o (r + 1)) s := by
        intro r hr hrn w s
        apply subRow_congr
        intro q hq1 hq2
        have := h.up r q hrn (by omega) hq2
        rw [Function.update_of_ne (by omega)]
      refine ⟨s2, d3, Function.update g i
        (subRow F col f g (dg i + 1) (o (i + 1)) (g i) / f (dg i)), d4.congr ?_, ?_, ?_⟩
      · intro k hk
        by_cases hki : k = i
        · subst hki; simp
        · rw [Function.update_of_ne hki, Function.update_of_ne hki, Function.update_of_ne hki]
      · intro k hk hk2
        rw [Function.update_of_ne (by omega)]
        exact k2 k (by omega) hk2
      · intro r hr hrn
        rw [hsame r hr hrn]
        by_cases hri : r = i
        · subst hri
          rw [Function.update_self, k2 r (.inl (by omega)) (by omega)]
        · rw [Function.update_of_ne hri, ← k3 r (by omega) hrn])
  refine ⟨x2, y, g, e2, h4, ?_, h3, fun i hi => h6 i (by omega) hi⟩
  intro k hk
  by_cases hkx : k < x.length
  · rw [h4.getElem? hkx, h5 k (.inr hk) hkx, h2 k hk hkx, hxr.getElem? hkx]
  · rw [List.getElem?_eq_none (by rw [h4.1]; omega), List.getElem?_eq_none (by omega)]

end loops
end Verif
