import Verif.Model.Oft
import Verif.Core.Rep
import Mathlib.Logic.Function.Basic

namespace Verif
open Model

variable {σ : Type}

/-! ### linked lists -/

/-- `l` is the list starting at `h` with successors `nx`, ended by −1 -/
def LChain (nx : Nat → Int) : Int → List Nat → Prop
  | h, [] => h = -1
  | h, x :: l => h = x ∧ LChain nx (nx x) l

theorem LChain.congr {nx nx' : Nat → Int} : ∀ {l : List Nat} {h : Int}, (∀ x ∈ l, nx' x = nx x) →
    LChain nx h l → LChain nx' h l
  | [], _, _, hc => hc
  | x :: l, _, he, hc => ⟨hc.1, by
      rw [he x (by simp)]
      exact LChain.congr (fun y hy => he y (by simp [hy])) hc.2⟩

/-! ### the rows to be transposed -/

/-- row `x < m` is stored from position `st x` on: its columns are `seg x`, strictly increasing -/
structure OftRows (c : OftCfg) (m k : Nat) (st : Nat → Int) (seg : Nat → List Int) : Prop where
  fin : ∀ x, x < m → rd c.irend x = some (st x + (seg x).length + c.eOff)
  col : ∀ x t, x < m → (h : t < (seg x).length) → rd c.icol (st x + t) = some ((seg x)[t] + c.base)
  range : ∀ x, x < m → ∀ v ∈ seg x, 0 ≤ v ∧ v < k
  incr : ∀ x, x < m → (seg x).Pairwise (· < ·)

/-- the state before column `j` if the list of column `j'` is `ch j'` and `q x` elements of row `x`
have been used -/
structure OftInv (m k : Nat) (st : Nat → Int) (seg : Nat → List Int) (j : Nat) (ch : Nat → List Nat)
    (q : Nat → Nat) (nx : Nat → Int) (hd : Nat → Int) (o : Oft) : Prop where
  rs : Rep o.start m (fun x => st x + q x)
  rh : Rep o.head k hd
  rn : Rep o.next m nx
  chain : ∀ c, j ≤ c → c < k → LChain nx (hd c) (ch c)
  nodup : ∀ c, (ch c).Nodup
  mem : ∀ c, j ≤ c → c < k → ∀ x, x ∈ ch c ↔ x < m ∧ (seg x)[q x]? = some (c : Int)
  used : ∀ x t, x < m → (h : t < (seg x).length) → (t < q x ↔ (seg x)[t] < (j : Int))

/-- pushing row `x` at position `t` -/
theorem oftPush_ok {c : OftCfg} {m k : Nat} {st : Nat → Int} {seg : Nat → List Int}
    (hr : OftRows c m k st seg) {x t : Nat} (hx : x < m) {hd nx : Nat → Int} {o : Oft}
    (rh : Rep o.head k hd) (rn : Rep o.next m nx) :
    (∃ v : Nat, (seg x)[t]? = some (v : Int) ∧ v < k ∧
      ∃ o', oftPush c x (st x + t) o = some o' ∧ o'.start = o.start ∧
        Rep o'.head k (Function.update hd v x) ∧ Rep o'.next m (Function.update nx x (hd v))) ∨
    ((seg x)[t]? = none ∧ oftPush c x (st x + t) o = some o) := by
  unfold oftPush
  rw [hr.fin x hx]
  simp only [Option.bind_eq_bind, Option.bind_some]
  by_cases ht : t < (seg x).length
  · left
    have hrg := hr.range x hx (seg x)[t] (List.getElem_mem _)
    obtain ⟨v, hv⟩ : ∃ v : Nat, (seg x)[t] = (v : Int) := ⟨(seg x)[t].toNat, by omega⟩
    have hvk : v < k := by omega
    obtain ⟨n', e1, r1⟩ := rn.wr_nat (hd v) hx
    obtain ⟨h', e2, r2⟩ := rh.wr_nat (x : Int) hvk
    refine ⟨v, by rw [List.getElem?_eq_getElem ht, hv], hvk, { o with next := n', head := h' }, ?_, rfl,
      r2, r1⟩
    rw [if_pos (by omega), hr.col x t hx ht, hv]
    simp only [Option.bind_some, Int.add_sub_cancel]
    rw [rh.rd_nat hvk, Option.bind_some, e1, Option.bind_some, e2]
    rfl
  · right
    exact ⟨by simp; omega, by rw [if_neg (by omega)]⟩

/-- the initial state -/
theorem oftInit_ok {c : OftCfg} {m k : Nat} {st : Nat → Int} {seg : Nat → List Int}
    (hr : OftRows c m k st seg) {irstart : List Int} {sOff : Int}
    (hst : ∀ x, x < m → rd irstart x = some (st x + sOff)) :
    ∃ o ch nx hd, oftInit c m k irstart sOff = some o ∧
      OftInv m k st seg 0 ch (fun _ => 0) nx hd o := by
  obtain ⟨o, e, ch, nx, hd, rs, rh, rn, h1, h2, h3⟩ := forC_inv_nat (n := m)
    (f := oftInitRow c irstart sOff)
    (s := ⟨List.replicate m 0, List.replicate k (-1), List.replicate m (-1)⟩)
    (fun i o => ∃ (ch : Nat → List Nat) (nx hd : Nat → Int),
      Rep o.start m (fun x => if x < i then st x else 0) ∧ Rep o.head k hd ∧ Rep o.next m nx ∧
      (∀ c, c < k → LChain nx (hd c) (ch c)) ∧ (∀ c, (ch c).Nodup) ∧
      ∀ c x, x ∈ ch c ↔ x < i ∧ (seg x)[0]? = some (c : Int))
    (by
      refine ⟨fun _ => [], fun _ => -1, fun _ => -1, ⟨by simp, ?_⟩, ⟨by simp, ?_⟩, ⟨by simp, ?_⟩,
        fun c _ => rfl, fun _ => List.nodup_nil, fun c x => by simp⟩ <;>
      · intro q hq
        simp [List.getElem?_replicate, hq])
    (by
      rintro i o hi ⟨ch, nx, hd, rs, rh, rn, h1, h2, h3⟩
      obtain ⟨s', e1, r1⟩ := rs.wr_nat (st i) hi
      have r1' : Rep s' m (fun x => if x < i + 1 then st x else 0) := by
        refine r1.congr ?_
        intro x hx
        by_cases e : x = i
        · subst e; simp
        · rw [Function.update_of_ne e]
          by_cases h : x < i
          · rw [if_pos h, if_pos (by omega)]
          · rw [if_neg h, if_neg (by omega)]
      unfold oftInitRow
      rw [hst i hi]
      simp only [Option.bind_eq_bind, Option.bind_some, Int.add_sub_cancel]
      rw [e1, Option.bind_some]
      rcases oftPush_ok hr (x := i) (t := 0) hi (o := { o with start := s' }) rh rn with
        ⟨v, hv, hvk, o', e2, es, rh', rn'⟩ | ⟨hv, e2⟩
      · refine ⟨o', by simpa using e2, Function.update ch v (i :: ch v), _, _, by rw [es]; exact r1',
          rh', rn', ?_, ?_, ?_⟩
        · intro c hc
          have hni : ∀ c, i ∉ ch c := fun c h => by have := ((h3 c i).mp h).1; omega
          have hcg : ∀ c, ∀ y ∈ ch c, Function.update nx i (hd v) y = nx y := by
            intro c y hy
            rw [Function.update_of_ne (show y ≠ i from fun e => hni c (e ▸ hy))]
          by_cases e : c = v
          · subst e
            rw [Function.update_self, Function.update_self]
            refine ⟨rfl, ?_⟩
            rw [Function.update_self]
            exact (h1 c hc).congr (hcg c)
          · rw [Function.update_of_ne e, Function.update_of_ne e]
            exact (h1 c hc).congr (hcg c)
        · intro c
          by_cases e : c = v
          · subst e
            rw [Function.update_self, List.nodup_cons]
            exact ⟨fun h => by have := ((h3 c i).mp h).1; omega, h2 c⟩
          · rw [Function.update_of_ne e]; exact h2 c
        · intro c x
          by_cases e : c = v
          · subst e
            rw [Function.update_self, List.mem_cons, h3]
            constructor
            · rintro (rfl | h)
              · exact ⟨by omega, hv⟩
              · exact ⟨by omega, h.2⟩
            · rintro ⟨h, h'⟩
              by_cases e : x = i
              · exact .inl e
              · exact .inr ⟨by omega, h'⟩
          · rw [Function.update_of_ne e, h3]
            constructor
            · rintro ⟨h, h'⟩; exact ⟨by omega, h'⟩
            · rintro ⟨h, h'⟩
              refine ⟨?_, h'⟩
              by_contra hn
              have : x = i := by omega
              subst this
              rw [hv] at h'
              injection h' with h'
              omega
      · refine ⟨{ o with start := s' }, by simpa using e2, ch, nx, hd, r1', rh, rn, h1, h2, ?_⟩
        intro c x
        rw [h3]
        constructor
        · rintro ⟨h, h'⟩; exact ⟨by omega, h'⟩
        · rintro ⟨h, h'⟩
          refine ⟨?_, h'⟩
          by_contra hn
          have : x = i := by omega
          subst this
          rw [hv] at h'
          exact absurd h' (by simp))
  refine ⟨o, ch, nx, hd, ?_, ?_⟩
  · unfold oftInit
    simpa using e
  · refine ⟨rs.congr fun x hx => by simp [hx], rh, rn, fun c _ hc => h1 c hc, h2,
      fun c _ _ x => h3 c x, fun x t hx ht => ?_⟩
    have := hr.range x hx (seg x)[t] (List.getElem_mem _)
    constructor
    · intro h; omega
    · intro h; omega

/-- the state while column `j` is walked: `rest` are the rows still to come -/
structure OftMid (m k : Nat) (st : Nat → Int) (seg : Nat → List Int) (j : Nat) (ch : Nat → List Nat)
    (q : Nat → Nat) (rest : List Nat) (q' : Nat → Nat) (nx hd : Nat → Int) (o : Oft) : Prop where
  rs : Rep o.start m (fun x => st x + q' x)
  rh : Rep o.head k hd
  rn : Rep o.next m nx
  sub : ∀ x ∈ rest, x < m ∧ q' x = q x ∧ (seg x)[q x]? = some (j : Int)
  nd : rest.Nodup
  qq : ∀ x, x < m → x ∉ rest →
    q' x = if (seg x)[q x]? = some (j : Int) then q x + 1 else q x
  chain : ∀ c, j < c → c < k → LChain nx (hd c) (ch c)
  nodup : ∀ c, (ch c).Nodup
  mem : ∀ c, j < c → c < k → ∀ x, x ∈ ch c ↔ x < m ∧ (seg x)[q' x]? = some (c : Int)

theorem oftWalk_ok {c : OftCfg} {m k : Nat} {st : Nat → Int} {seg : Nat → List Int}
    (hr : OftRows c m k st seg) {j : Nat} {q : Nat → Nat} :
    ∀ (rest : List Nat) (fuel : Nat) (_ : rest.length ≤ fuel) (row : Int) (ch : Nat → List Nat)
      (q' : Nat → Nat) (nx hd : Nat → Int) (o : Oft) (_ : OftMid m k st seg j ch q rest q' nx hd o)
      (_ : LChain nx row rest),
    ∃ o' ch' q'' nx' hd', OftMid m k st seg j ch' q [] q'' nx' hd' o' ∧
      ∀ (σ : Type) (body : Int → Int → σ → Option σ) (s : σ),
        oftWalk c body fuel row (o, s)
          = (rest.foldlM (fun s (x : Nat) => body x (st x + q x) s) s).map fun t => (o', t) := by
  intro rest
  induction rest with
  | nil =>
    intro fuel _ row ch q' nx hd o h hc
    refine ⟨o, ch, q', nx, hd, h, ?_⟩
    intro σ body s
    have hc : row = -1 := hc
    subst hc
    cases fuel <;> rfl
  | cons x rest ih =>
    intro fuel hf row ch q' nx hd o h hc
    obtain ⟨rfl, hc2⟩ : row = (x : Int) ∧ LChain nx (nx x) rest := hc
    obtain ⟨fuel, rfl⟩ : ∃ f, fuel = f + 1 := ⟨fuel - 1, by simp at hf; omega⟩
    obtain ⟨hx, hq, hsx⟩ := h.sub x (by simp)
    have hxr : x ∉ rest := (List.nodup_cons.mp h.nd).1
    have hnr : rest.Nodup := (List.nodup_cons.mp h.nd).2
    obtain ⟨s', e1, r1⟩ := h.rs.wr_nat (st x + (q' x + 1 : Nat)) hx
    have r1' : Rep s' m (fun y => st y + (Function.update q' x (q' x + 1) y : Nat)) := by
      refine r1.congr ?_
      intro y _
      by_cases e : y = x
      · subst e; rw [Function.update_self, Function.update_self]
      · rw [Function.update_of_ne e, Function.update_of_ne e]
    have hqj : (seg x)[q' x]? = some (j : Int) := by rw [hq]; exact hsx
    -- the row is in no later list
    have hnin : ∀ c, j < c → c < k → x ∉ ch c := by
      intro c h1 h2 hin
      have := ((h.mem c h1 h2 x).mp hin).2
      rw [hqj] at this
      injection this with this
      omega
    have hpush := oftPush_ok hr (x := x) (t := q' x + 1) hx (o := { o with start := s' }) h.rh h.rn
    have step : ∃ o' ch' nx' hd', oftNext c x o = some (nx x, o') ∧
        OftMid m k st seg j ch' q rest (Function.update q' x (q' x + 1)) nx' hd' o' ∧
        (∀ y, y ≠ x → nx' y = nx y) := by
      have hnext : ∀ o', oftPush c x (st x + (q' x + 1 : Nat)) { o with start := s' } = some o' →
          oftNext c x o = some (nx x, o') := by
        intro o' ho
        unfold oftNext
        rw [h.rn.rd_nat hx]
        simp only [Option.bind_eq_bind, Option.bind_some]
        rw [h.rs.rd_nat hx, Option.bind_some,
          show st x + (q' x : Int) + 1 = st x + ((q' x + 1 : Nat) : Int) by push_cast; ring, e1,
          Option.bind_some, ho]
        rfl
      have hsub : ∀ y ∈ rest, y < m ∧ Function.update q' x (q' x + 1) y = q y ∧
          (seg y)[q y]? = some (j : Int) := by
        intro y hy
        have := h.sub y (by simp [hy])
        rw [Function.update_of_ne (show y ≠ x from fun e => hxr (e ▸ hy))]
        exact this
      have hqq : ∀ y, y < m → y ∉ rest → Function.update q' x (q' x + 1) y
          = if (seg y)[q y]? = some (j : Int) then q y + 1 else q y := by
        intro y hy hn
        by_cases e : y = x
        · subst e
          rw [Function.update_self, if_pos hsx, hq]
        · rw [Function.update_of_ne e]
          exact h.qq y hy (by simp [e, hn])
      rcases hpush with ⟨v, hv, hvk, o', e2, es, rh', rn'⟩ | ⟨hv, e2⟩
      · have hvj : j < v := by
          have hp := List.pairwise_iff_getElem.mp (hr.incr x hx)
          obtain ⟨l1, g1⟩ := List.getElem?_eq_some_iff.mp hqj
          obtain ⟨l2, g2⟩ := List.getElem?_eq_some_iff.mp hv
          have := hp _ _ l1 l2 (by omega)
          rw [g1, g2] at this
          omega
        refine ⟨o', Function.update ch v (x :: ch v), _, _, hnext o' e2,
          ⟨by rw [es]; exact r1', rh', rn', hsub, hnr, hqq, ?_, ?_, ?_⟩, ?_⟩
        · intro c h1 h2
          have hcg : ∀ y ∈ ch c, Function.update nx x (hd v) y = nx y := by
            intro y hy
            rw [Function.update_of_ne (show y ≠ x from fun e => hnin c h1 h2 (e ▸ hy))]
          by_cases e : c = v
          · subst e
            rw [Function.update_self, Function.update_self]
            refine ⟨rfl, ?_⟩
            rw [Function.update_self]
            exact (h.chain c h1 h2).congr hcg
          · rw [Function.update_of_ne e, Function.update_of_ne e]
            exact (h.chain c h1 h2).congr hcg
        · intro c
          by_cases e : c = v
          · subst e
            rw [Function.update_self, List.nodup_cons]
            exact ⟨hnin c hvj hvk, h.nodup c⟩
          · rw [Function.update_of_ne e]; exact h.nodup c
        · intro c h1 h2 y
          by_cases ey : y = x
          · subst ey
            rw [Function.update_self, hv]
            by_cases e : c = v
            · subst e
              rw [Function.update_self]
              simp [hx]
            · rw [Function.update_of_ne e]
              constructor
              · intro h; exact absurd h (hnin c h1 h2)
              · rintro ⟨_, h⟩
                injection h with h
                omega
          · rw [Function.update_of_ne ey]
            by_cases e : c = v
            · subst e
              rw [Function.update_self, List.mem_cons, h.mem c h1 h2]
              simp [ey]
            · rw [Function.update_of_ne e, h.mem c h1 h2]
        · intro y hy
          rw [Function.update_of_ne hy]
      · refine ⟨_, ch, nx, hd, hnext _ e2, ⟨r1', h.rh, h.rn, hsub, hnr, hqq, h.chain, h.nodup, ?_⟩,
          fun _ _ => rfl⟩
        intro c h1 h2 y
        by_cases ey : y = x
        · subst ey
          rw [Function.update_self, hv]
          constructor
          · intro h; exact absurd h (hnin c h1 h2)
          · rintro ⟨_, h⟩; exact absurd h (by simp)
        · rw [Function.update_of_ne ey, h.mem c h1 h2]
    obtain ⟨o1, ch1, nx1, hd1, en, hm1, hnx⟩ := step
    obtain ⟨o2, ch2, q2, nx2, hd2, hm2, hwalk⟩ := ih fuel (by simp at hf; omega) (nx x) ch1 _ nx1 hd1 o1
      hm1 (hc2.congr fun y hy => hnx y (fun e => hxr (e ▸ hy)))
    refine ⟨o2, ch2, q2, nx2, hd2, hm2, ?_⟩
    intro σ body s
    rw [oftWalk, if_pos (by omega)]
    simp only [Option.bind_eq_bind]
    rw [h.rs.rd_nat hx, Option.bind_some, List.foldlM_cons]
    simp only [Option.bind_eq_bind]
    rw [hq]
    cases hb : body x (st x + q x) s with
    | none => rfl
    | some t =>
      rw [Option.bind_some, en, Option.bind_some, Option.bind_some]
      exact hwalk σ body t

/-- one column: the visits and the next state do not depend on what is done with them -/
theorem oftCol_ok {c : OftCfg} {m k : Nat} {st : Nat → Int} {seg : Nat → List Int}
    (hr : OftRows c m k st seg) {j : Nat} (hj : j < k) {ch : Nat → List Nat} {q : Nat → Nat}
    {nx hd : Nat → Int} {o : Oft} (h : OftInv m k st seg j ch q nx hd o) :
    ∃ o' ch' q' nx' hd', OftInv m k st seg (j + 1) ch' q' nx' hd' o' ∧
      ∀ (σ : Type) (body : Int → Int → σ → Option σ) (s : σ),
        oftCol c body m j (o, s)
          = ((ch j).foldlM (fun s (x : Nat) => body x (st x + q x) s) s).map fun t => (o', t) := by
  have hmem := h.mem j (le_refl _) hj
  have hlen : (ch j).length ≤ m := by
    have : (ch j) ⊆ List.range m := fun x hx => List.mem_range.mpr ((hmem x).mp hx).1
    have := (List.subperm_of_subset (h.nodup j) this).length_le
    simpa using this
  obtain ⟨o', ch', q', nx', hd', hm, hw⟩ := oftWalk_ok hr (j := j) (q := q) (ch j) m hlen (hd j) ch q nx
    hd o ⟨h.rs, h.rh, h.rn, fun x hx => ⟨((hmem x).mp hx).1, rfl, ((hmem x).mp hx).2⟩, h.nodup j,
      fun x hx hn => by
        rw [if_neg]
        intro he
        exact hn ((hmem x).mpr ⟨hx, he⟩),
      fun c h1 h2 => h.chain c (by omega) h2, h.nodup, fun c h1 h2 => h.mem c (by omega) h2⟩
    (h.chain j (le_refl _) hj)
  refine ⟨o', ch', q', nx', hd', ⟨hm.rs, hm.rh, hm.rn, fun c h1 h2 => hm.chain c (by omega) h2,
    hm.nodup, fun c h1 h2 => hm.mem c (by omega) h2, ?_⟩, ?_⟩
  · intro x t hx ht
    rw [hm.qq x hx (by simp)]
    have hu := h.used x
    have hp := List.pairwise_iff_getElem.mp (hr.incr x hx)
    split
    · rename_i he
      obtain ⟨l1, g1⟩ := List.getElem?_eq_some_iff.mp he
      constructor
      · intro hlt
        by_cases e : t = q x
        · subst e; omega
        · have := (hu t hx ht).mp (by omega); omega
      · intro hlt
        by_contra hn
        have := hp (q x) t l1 ht (by omega)
        omega
    · rename_i hne
      rw [hu t hx ht]
      constructor
      · intro h; omega
      · intro hlt
        by_contra hn
        have hjt : (seg x)[t] = (j : Int) := by omega
        have h1 : ¬ t < q x := fun h => by have := (hu t hx ht).mp h; omega
        have h2 : ¬ q x < t := fun h => by
          have h3 := hp (q x) t (by omega) ht h
          have := (hu (q x) hx (by omega)).mpr (by omega)
          omega
        have e : t = q x := by omega
        subst e
        exact hne (by rw [List.getElem?_eq_getElem ht, hjt])
  · intro σ body s
    unfold oftCol
    simp only [Option.bind_eq_bind]
    rw [h.rh.rd_nat hj, Option.bind_some]
    exact hw σ body s

/-- a sequence of states -/
theorem seq_of_step {α β : Type} [Inhabited β] {k : Nat} (P : Nat → α → Prop)
    (Q : Nat → α → β → α → Prop) {a0 : α} (h0 : P 0 a0)
    (hs : ∀ j a, j < k → P j a → ∃ a' b, P (j + 1) a' ∧ Q j a b a') :
    ∃ (A : Nat → α) (B : Nat → β), A 0 = a0 ∧ ∀ j, j < k → Q j (A j) (B j) (A (j + 1)) := by
  classical
  let S : Nat → α := fun j => Nat.rec a0 (fun j a =>
    if h : j < k ∧ P j a then (hs j a h.1 h.2).choose else a) j
  have hP : ∀ j, j ≤ k → P j (S j) := by
    intro j
    induction j with
    | zero => intro _; exact h0
    | succ j ih =>
      intro hj
      have hp := ih (by omega)
      have e : S (j + 1) = (hs j (S j) (by omega) hp).choose := by
        show (if h : j < k ∧ P j (S j) then (hs j (S j) h.1 h.2).choose else S j) = _
        rw [dif_pos ⟨by omega, hp⟩]
      rw [e]
      exact (hs j (S j) (by omega) hp).choose_spec.choose_spec.1
  refine ⟨S, fun j => if h : j < k then (hs j (S j) h (hP j (by omega))).choose_spec.choose
    else default, rfl, ?_⟩
  intro j hj
  have e : S (j + 1) = (hs j (S j) hj (hP j (by omega))).choose := by
    show (if h : j < k ∧ P j (S j) then (hs j (S j) h.1 h.2).choose else S j) = _
    rw [dif_pos ⟨hj, hP j (by omega)⟩]
  rw [e]
  simp only [dif_pos hj]
  exact (hs j (S j) hj (hP j (by omega))).choose_spec.choose_spec.2

/-- the visits of column `j`: every stored element of the column exactly once -/
structure OftVisits (m : Nat) (seg : Nat → List Int) (j : Nat) (V : List (Nat × Nat)) : Prop where
  nodup : (V.map (·.1)).Nodup
  mem : ∀ x t, (x, t) ∈ V ↔ x < m ∧ (seg x)[t]? = some (j : Int)

/-- The transposition on the fly goes through the columns in order and visits every stored element
of a column exactly once. -/
theorem oft_trace {c : OftCfg} {m k : Nat} {st : Nat → Int} {seg : Nat → List Int}
    (hr : OftRows c m k st seg) {irstart : List Int} {sOff : Int}
    (hst : ∀ x, x < m → rd irstart x = some (st x + sOff)) :
    ∃ (O : Nat → Oft) (V : Nat → List (Nat × Nat)), oftInit c m k irstart sOff = some (O 0) ∧
      ∀ j, j < k → OftVisits m seg j (V j) ∧
        ∀ (σ : Type) (body : Int → Int → σ → Option σ) (s : σ),
          oftCol c body m j (O j, s)
            = ((V j).foldlM (fun s p => body (p.1 : Int) (st p.1 + (p.2 : Int)) s) s).map
                fun t => (O (j + 1), t) := by
  obtain ⟨o, ch, nx, hd, e, hi⟩ := oftInit_ok hr hst
  obtain ⟨O, V, hO, hV⟩ := seq_of_step (k := k) (β := List (Nat × Nat)) (a0 := o)
    (fun j o => ∃ ch q nx hd, OftInv m k st seg j ch q nx hd o)
    (fun j o V o' => OftVisits m seg j V ∧ ∀ (σ : Type) (body : Int → Int → σ → Option σ) (s : σ),
          oftCol c body m j (o, s)
            = (V.foldlM (fun s p => body (p.1 : Int) (st p.1 + (p.2 : Int)) s) s).map
                fun t => (o', t))
    ⟨ch, _, nx, hd, hi⟩
    (by
      rintro j o hj ⟨ch, q, nx, hd, h⟩
      obtain ⟨o', ch', q', nx', hd', h', hw⟩ := oftCol_ok hr hj h
      refine ⟨o', (ch j).map fun x => (x, q x), ⟨ch', q', nx', hd', h'⟩, ⟨?_, ?_⟩, ?_⟩
      · rw [List.map_map]
        simpa [Function.comp_def] using h.nodup j
      · intro x t
        rw [List.mem_map]
        constructor
        · rintro ⟨y, hy, he⟩
          injection he with e1 e2
          subst e1 e2
          exact (h.mem j (le_refl _) hj y).mp hy
        · rintro ⟨hx, ht⟩
          obtain ⟨l1, g1⟩ := List.getElem?_eq_some_iff.mp ht
          have hp := List.pairwise_iff_getElem.mp (hr.incr x hx)
          have h1 : ¬ t < q x := fun hlt => by have := (h.used x t hx l1).mp hlt; omega
          have h2 : ¬ q x < t := fun hlt => by
            have h3 := hp (q x) t (by omega) l1 hlt
            have := (h.used x (q x) hx (by omega)).mpr (by omega)
            omega
          have e : t = q x := by omega
          subst e
          exact ⟨x, (h.mem j (le_refl _) hj x).mpr ⟨hx, ht⟩, rfl⟩
      · intro σ body s
        rw [hw σ body s, foldlM_map'])
  exact ⟨O, V, by rw [hO]; exact e, hV⟩

end Verif
