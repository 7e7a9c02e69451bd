import Verif.Proofs.Oft
import Verif.Proofs.Sp2m3

namespace Verif
open Model

variable {R : Type} [Semiring R]

/-! ### one sparse row added to a row of the result -/

/-- the products of `a` with row `x` of B that go into row `i` -/
def spProd (onlyU : Bool) (cB : R → R) (B : Csr R) (i : Nat) (e : R × Nat) : List (Int × R) :=
  ((B.row e.2).filter fun f => ¬ (onlyU = true ∧ f.1 < (i : Int))).map fun f => (f.1, e.1 * cB f.2)

/-- all products of a row -/
def spProds (onlyU : Bool) (cB : R → R) (B : Csr R) (W : Nat → List (R × Nat)) (i : Nat) :
    List (Int × R) := (W i).flatMap (spProd onlyU cB B i)

/-- row `i` of the result -/
def spOut (onlyU : Bool) (cB : R → R) (B : Csr R) (W : Nat → List (R × Nat)) (i : Nat) :
    List (Int × R) :=
  (firsts ((spProds onlyU cB B W i).map (·.1))).map fun c =>
    (c, colSum (spProds onlyU cB B W i) c.toNat)

theorem foldlM_filter' {α σ : Type} (p : α → Prop) [DecidablePred p] (g : σ → α → Option σ)
    (l : List α) (s : σ) :
    l.foldlM (fun s a => if p a then some s else g s a) s
      = (l.filter fun a => ¬ p a).foldlM g s := by
  induction l generalizing s with
  | nil => rfl
  | cons a l ih =>
    rw [List.foldlM_cons]
    by_cases h : p a
    · simp only [h, if_true, Option.bind_eq_bind, Option.bind_some]
      rw [ih, List.filter_cons_of_neg (by simp [h])]
    · simp only [h, if_false, Option.bind_eq_bind]
      rw [List.filter_cons_of_pos (by simp [h]), List.foldlM_cons]
      simp only [Option.bind_eq_bind]
      congr 1
      funext s'
      exact ih s'

theorem spRowCnt_eq {B : Csr R} (hB : B.WF) (onlyU : Bool) (cB : R → R) (i : Nat) (e : R × Nat)
    (hx : e.2 < B.m) (s : List Int × Int) :
    spRowCnt onlyU B.arrs (i : Int) e.1 (e.2 : Int) s
      = ((spProd onlyU cB B i e).map (·.1)).foldlM (fun s c => addCntB (i : Int) c s) s := by
  have h1 := hB.rd_ptr (i := e.2) (by omega)
  have h2 := hB.rd_ptr (i := e.2 + 1) (by omega)
  rw [show ((e.2 + 1 : Nat) : Int) = (e.2 : Int) + 1 by omega] at h2
  unfold spRowCnt
  simp only [Csr.arrs, h1, h2, Option.bind_eq_bind, Option.bind_some]
  rw [spProd, List.map_map, foldlM_map']
  have := Csr.forC_row' hB hx (F := spCnt onlyU B.arrs (i : Int))
    (G := fun c _ s => if onlyU = true ∧ c < (i : Int) then some s else addCntB (i : Int) c s)
    (by
      intro j c v s h1 h2 _
      simp only [spCnt, Csr.arrs, h1, Option.bind_eq_bind, Option.bind_some, Int.add_sub_cancel]) s
  simp only [Csr.arrs] at this
  rw [this]
  exact foldlM_filter' (fun f : Int × R => onlyU = true ∧ f.1 < (i : Int))
    (fun s f => addCntB (i : Int) f.1 s) _ s

theorem spRowAdd_eq {B : Csr R} (hB : B.WF) (onlyU : Bool) (cB : R → R) (i : Nat) (e : R × Nat)
    (hx : e.2 < B.m) (s : MmSt R) :
    spRowAdd onlyU cB B.arrs (i : Int) e.1 (e.2 : Int) s
      = (spProd onlyU cB B i e).foldlM (fun s f => mmStep (i : Int) (f.1 + 0) f.2 s) s := by
  have h1 := hB.rd_ptr (i := e.2) (by omega)
  have h2 := hB.rd_ptr (i := e.2 + 1) (by omega)
  rw [show ((e.2 + 1 : Nat) : Int) = (e.2 : Int) + 1 by omega] at h2
  unfold spRowAdd
  simp only [Csr.arrs, h1, h2, Option.bind_eq_bind, Option.bind_some]
  rw [spProd, foldlM_map']
  have := Csr.forC_row' hB hx (F := spAdd onlyU cB B.arrs (i : Int) e.1)
    (G := fun c v s => if onlyU = true ∧ c < (i : Int) then some s
      else mmStep (i : Int) (c + 0) (e.1 * cB v) s)
    (by
      intro j c v s h1 h2 _
      simp only [spAdd, Csr.arrs, h1, h2, Option.bind_eq_bind, Option.bind_some, Int.add_sub_cancel,
        Int.add_zero]) s
  simp only [Csr.arrs] at this
  rw [this]
  exact foldlM_filter' (fun f : Int × R => onlyU = true ∧ f.1 < (i : Int))
    (fun s f => mmStep (i : Int) (f.1 + 0) (e.1 * cB f.2) s) _ s

/-! ### the counting stage -/

theorem addCntB_shift (i : Int) (a : Int) (l : List Int) (f : List Int) (t : Int) :
    l.foldlM (fun s c => addCntB i c s) (f, a + t)
      = (l.foldlM (fun s c => addCntB i c s) (f, t)).map fun r => (r.1, a + r.2) := by
  induction l generalizing f t with
  | nil => rfl
  | cons c l ih =>
    rw [List.foldlM_cons, List.foldlM_cons]
    have h : addCntB i c (f, a + t) = (addCntB i c (f, t)).map fun r => (r.1, a + r.2) := by
      unfold addCntB
      simp only [Option.bind_eq_bind]
      cases rd f c with
      | none => rfl
      | some x =>
        simp only [Option.bind_some]
        split
        · cases wr f c i with
          | none => rfl
          | some y => simp only [Option.bind_some, Option.map_some, Int.add_assoc]
        · rfl
    rw [h]
    cases addCntB i c (f, t) with
    | none => rfl
    | some r =>
      simp only [Option.map_some, Option.bind_eq_bind, Option.bind_some]
      exact ih r.1 r.2

theorem spProds_range {B : Csr R} (hB : B.WF) (onlyU : Bool) (cB : R → R) (W : Nat → List (R × Nat))
    (i : Nat) {e : Int × R} (h : e ∈ spProds onlyU cB B W i) : 0 ≤ e.1 ∧ e.1 < B.n := by
  simp only [spProds, spProd, List.mem_flatMap, List.mem_map, List.mem_filter] at h
  obtain ⟨_, _, f, ⟨hf, _⟩, rfl⟩ := h
  have := Csr.row_range hB hf
  exact this

theorem spOut_length (onlyU : Bool) (cB : R → R) (B : Csr R) (W : Nat → List (R × Nat)) (i : Nat) :
    (spOut onlyU cB B W i).length = (firsts ((spProds onlyU cB B W i).map (·.1))).length := by
  simp [spOut]

/-- what the visiting of the rows does: row `i` gets the rows of B listed in `W i`, and the state of
the transposition goes from `O i` to `O (i+1)` -/
def VisitsBy {σ : Type} (k : Nat) (O : Nat → Oft) (W : Nat → List (R × Nat))
    (visit : Int → Oft × σ → Option (Oft × σ)) (step : Int → R → Int → σ → Option σ) : Prop :=
  ∀ i : Nat, i < k → ∀ s : σ, visit (i : Int) (O i, s)
    = ((W i).foldlM (fun s e => step (i : Int) e.1 (e.2 : Int) s) s).map fun t => (O (i + 1), t)

theorem countRows_ok {B : Csr R} (hB : B.WF) (onlyU : Bool) (cB : R → R) {k w : Nat} {O : Nat → Oft}
    {W : Nat → List (R × Nat)} (hW : ∀ i, i < k → ∀ e ∈ W i, e.2 < B.m)
    {visit : Int → Oft × (List Int × Int) → Option (Oft × (List Int × Int))}
    (hv : VisitsBy k O W visit (spRowCnt onlyU B.arrs)) {ptr : List Int} (hp : ptr.length = k + 1) :
    countRows w k B.n visit (O 0) ptr
      = some (if sumOverflow 64 w (offs (spOut onlyU cB B W) k : Int) then .invalidSize else .success,
          (List.range (k + 1)).map (fun i => ((offs (spOut onlyU cB B W) i : Nat) : Int)),
          ((offs (spOut onlyU cB B W) k : Nat) : Int)) := by
  have rp : Rep ptr (k + 1) (fun i => ptr.getD i 0) := by
    rw [← hp]; exact Rep.of_list ptr 0
  obtain ⟨p0, e0, r0⟩ := rp.wr_nat 0 (i := 0) (by omega)
  obtain ⟨s, es, h1, h2, h3, h4⟩ := forC_inv_nat (n := k) (f := countRow visit)
    (s := ⟨O 0, (List.replicate B.n (-1), 0), p0⟩)
    (fun i (s : SpCntSt) => s.oft = O i ∧ s.cnt.2 = ((offs (spOut onlyU cB B W) i : Nat) : Int) ∧
      (∃ f, Rep s.cnt.1 B.n f ∧ ∀ c, c < B.n → f c < (i : Int)) ∧
      ∃ g, Rep s.ptr (k + 1) g ∧ ∀ t, t ≤ i → g t = ((offs (spOut onlyU cB B W) t : Nat) : Int))
    (by
      refine ⟨rfl, rfl, ⟨fun _ => -1, ⟨by simp, ?_⟩, fun c _ => by show (-1 : Int) < _; omega⟩, _, r0, ?_⟩
      · intro q hq
        rw [List.getElem?_replicate, if_pos hq]
      · intro t ht
        obtain rfl : t = 0 := by omega
        simp)
    (by
      rintro i s hi ⟨h1, h2, ⟨f, hf, hf2⟩, g, hg, hg2⟩
      have hfold : (W i).foldlM (fun s e => spRowCnt onlyU B.arrs (i : Int) e.1 (e.2 : Int) s) s.cnt
          = ((spProds onlyU cB B W i).map (·.1)).foldlM (fun s c => addCntB (i : Int) c s) s.cnt := by
        rw [spProds, List.map_flatMap, foldlM_flatMap']
        apply foldlM_congr'
        intro s e he
        exact spRowCnt_eq hB onlyU cB i e (hW i hi e he) s
      obtain ⟨s1, e1, ⟨f', hf', hf2'⟩, hcnt⟩ := foldlM_inv (f := fun s c => addCntB (i : Int) c s)
        (l := (spProds onlyU cB B W i).map (·.1)) (s := (s.cnt.1, 0))
        (fun pre s => MmCnt B.n i pre s)
        (by
          refine ⟨⟨f, hf, ?_⟩, rfl⟩
          intro c hc
          have := hf2 c hc
          exact ⟨by omega, fun h => absurd h (by omega), fun h => by simp at h⟩)
        (by
          intro pre c suf s' hl hP
          have hmem : c ∈ (spProds onlyU cB B W i).map (·.1) := by rw [hl]; simp
          obtain ⟨e, he, rfl⟩ := List.mem_map.mp hmem
          exact mmCnt_step hP (spProds_range hB onlyU cB W i he))
      have hsh := addCntB_shift (i : Int) s.cnt.2 ((spProds onlyU cB B W i).map (·.1)) s.cnt.1 0
      rw [Int.add_zero, e1, Option.map_some] at hsh
      obtain ⟨p1, e2, r2⟩ := hg.wr_nat (s.cnt.2 + s1.2) (i := i + 1) (by omega)
      rw [show ((i + 1 : Nat) : Int) = (i : Int) + 1 by omega] at e2
      have hlen : s.cnt.2 + s1.2 = ((offs (spOut onlyU cB B W) (i + 1) : Nat) : Int) := by
        rw [offs_succ, spOut_length, h2, hcnt]; push_cast; rfl
      refine ⟨⟨O (i + 1), (s1.1, s.cnt.2 + s1.2), p1⟩, ?_, rfl, hlen, ⟨f', hf', fun c hc => ?_⟩,
        _, r2, ?_⟩
      · unfold countRow
        rw [h1, hv i hi, hfold, show s.cnt = (s.cnt.1, s.cnt.2) from rfl, hsh]
        simp only [Option.map_some, Option.bind_eq_bind, Option.bind_some]
        rw [e2]
        rfl
      · have := (hf2' c hc).1
        push_cast; omega
      · intro t ht
        by_cases e : t = i + 1
        · subst e; rw [Function.update_self, hlen]
        · rw [Function.update_of_ne e]; exact hg2 t (by omega))
  obtain ⟨g, hg, hg2⟩ := h4
  have hptr : s.ptr = (List.range (k + 1)).map (fun i => ((offs (spOut onlyU cB B W) i : Nat) : Int)) := by
    rw [hg.eq_map]
    apply List.map_congr_left
    intro i hi
    exact hg2 i (by have := List.mem_range.mp hi; omega)
  unfold countRows
  rw [show ((0 : Nat) : Int) = 0 from rfl] at e0
  simp only [Option.bind_eq_bind, Int.toNat_natCast]
  rw [e0, Option.bind_some, es, Option.bind_some, h2, hptr]
  split <;> rfl

/-! ### the stage with values -/

/-- copying out a row -/
theorem copyOut_ok {off n : Nat} {F : List Int} {ind : List Int} {val : List R} {sum : List R}
    {S : Int → R} {g : Nat → R} (hg : Rep sum n g) (hF : ∀ c ∈ F, 0 ≤ c ∧ c < n ∧ g c.toNat = S c)
    (hnd : F.Nodup) (hw : Win ind off F) (hi : off + F.length ≤ ind.length)
    (hv : off + F.length ≤ val.length) :
    ∃ c, forC (off : Int) ((off + F.length : Nat) : Int) (copyOut ind) (sum, val) = some c ∧
      (∃ g', Rep c.1 n g') ∧ Win c.2 off (F.map S) ∧ c.2.length = val.length ∧
      (∀ q, ¬ (off ≤ q ∧ q < off + F.length) → c.2[q]? = val[q]?) := by
  obtain ⟨c, e, ⟨g', hg', _⟩, h1, h2, h3⟩ := forC_inv_off (a := (off : Int))
    (b := ((off + F.length : Nat) : Int)) (n := F.length) (f := copyOut ind) (s := (sum, val))
    (fun t (c : List R × List R) =>
      (∃ g', Rep c.1 n g' ∧ ∀ q, t ≤ q → (h : q < F.length) → g' F[q].toNat = S F[q]) ∧
      (∀ q, q < t → c.2[off + q]? = (F.map S)[q]?) ∧ c.2.length = val.length ∧
      (∀ q, ¬ (off ≤ q ∧ q < off + F.length) → c.2[q]? = val[q]?))
    (by push_cast; rfl)
    ⟨⟨g, hg, fun q _ h => (hF _ (List.getElem_mem _)).2.2⟩, fun q h => absurd h (by omega), rfl,
      fun _ _ => rfl⟩
    (by
      rintro t c ht ⟨⟨g', hg', hg2⟩, h1, h2, h3⟩
      have hr : rd ind ((off : Int) + t) = some F[t] := by
        rw [show (off : Int) + t = ((off + t : Nat) : Int) by push_cast; rfl, rd_ofNat, hw t ht]
        simp [ht]
      have hc := hF F[t] (List.getElem_mem _)
      obtain ⟨cn, hcn⟩ : ∃ cn : Nat, F[t] = (cn : Int) := ⟨F[t].toNat, by omega⟩
      have hcn' : cn < n := by omega
      obtain ⟨sum', e1, r1⟩ := hg'.wr_nat (0 : R) hcn'
      refine ⟨(sum', c.2.set (off + t) (S F[t])), ?_, ⟨_, r1, ?_⟩, ?_, by simpa using h2, ?_⟩
      · unfold copyOut
        rw [hr]
        simp only [Option.bind_eq_bind, Option.bind_some]
        have hgt := hg2 t (le_refl _) ht
        rw [hcn, Int.toNat_natCast] at hgt
        rw [hcn, hg'.rd_nat hcn', Option.bind_some,
          show (off : Int) + t = ((off + t : Nat) : Int) by push_cast; rfl, wr_ofNat (by omega),
          Option.bind_some, e1, hgt]
        rfl
      · intro q hq hql
        have hne : F[q].toNat ≠ cn := by
          intro h
          have hq0 := hF F[q] (List.getElem_mem _)
          have : F[q] = F[t] := by omega
          have := (List.Nodup.getElem_inj_iff hnd).mp this
          omega
        rw [Function.update_of_ne hne]
        exact hg2 q (by omega) hql
      · intro q hq
        by_cases e : q = t
        · subst e
          rw [List.getElem?_set_self (by omega)]
          simp [ht]
        · rw [List.getElem?_set_ne (by omega)]
          exact h1 q (by omega)
      · intro q hq
        rw [List.getElem?_set_ne (by omega)]
        exact h3 q hq)
  exact ⟨c, e, ⟨g', hg'⟩, fun t ht => h1 t (by simpa using ht), h2, h3⟩

theorem fillRows_ok {B : Csr R} (hB : B.WF) (onlyU : Bool) (cB : R → R) {k : Nat} {O : Nat → Oft}
    {W : Nat → List (R × Nat)} (hW : ∀ i, i < k → ∀ e ∈ W i, e.2 < B.m)
    {visit : Int → Oft × MmSt R → Option (Oft × MmSt R)}
    (hv : VisitsBy k O W visit (spRowAdd onlyU cB B.arrs)) {ptr ind : List Int} {val : List R}
    (hp : ptr.length = k + 1) (hi : offs (spOut onlyU cB B W) k ≤ ind.length)
    (hl : offs (spOut onlyU cB B W) k ≤ val.length) :
    ∃ ind' val', fillRows k B.n visit (O 0) ptr ind val
        = some ((List.range (k + 1)).map (fun i => ((offs (spOut onlyU cB B W) i : Nat) : Int)), ind',
          val', ((offs (spOut onlyU cB B W) k : Nat) : Int)) ∧
      ind'.length = ind.length ∧ val'.length = val.length ∧
      (∀ i, i < k → Win ind' (offs (spOut onlyU cB B W) i) ((spOut onlyU cB B W i).map (·.1))) ∧
      (∀ i, i < k → Win val' (offs (spOut onlyU cB B W) i) ((spOut onlyU cB B W i).map (·.2))) := by
  have rp : Rep ptr (k + 1) (fun i => ptr.getD i 0) := by
    rw [← hp]; exact Rep.of_list ptr 0
  obtain ⟨p0, e0, r0⟩ := rp.wr_nat 0 (i := 0) (by omega)
  obtain ⟨s, es, h1, h2, h3, h4, h5, h6, h7⟩ := forC_inv_nat (n := k) (f := spFillRow visit)
    (s := ⟨O 0, ⟨List.replicate B.n (-1), List.replicate B.n 0, 0, ind⟩, p0, val⟩)
    (fun i (s : SpFill R) => s.oft = O i ∧
      s.st.pos = ((offs (spOut onlyU cB B W) i : Nat) : Int) ∧
      (∃ f, Rep s.st.idx B.n f ∧ ∀ c, c < B.n → f c < (i : Int)) ∧ (∃ g, Rep s.st.sum B.n g) ∧
      (∃ g, Rep s.ptr (k + 1) g ∧ ∀ t, t ≤ i → g t = ((offs (spOut onlyU cB B W) t : Nat) : Int)) ∧
      (s.st.ind.length = ind.length ∧ ∀ t, t < i →
        Win s.st.ind (offs (spOut onlyU cB B W) t) ((spOut onlyU cB B W t).map (·.1))) ∧
      (s.val.length = val.length ∧ ∀ t, t < i →
        Win s.val (offs (spOut onlyU cB B W) t) ((spOut onlyU cB B W t).map (·.2))))
    (by
      refine ⟨rfl, rfl, ⟨fun _ => -1, ⟨by simp, ?_⟩, fun c _ => by show (-1 : Int) < _; omega⟩, ⟨fun _ => 0, by simp, ?_⟩,
        ⟨_, r0, ?_⟩, ⟨rfl, fun t h => absurd h (by omega)⟩, rfl, fun t h => absurd h (by omega)⟩
      · intro q hq
        rw [List.getElem?_replicate, if_pos hq]
      · intro q hq
        rw [List.getElem?_replicate, if_pos hq]
      · intro t ht
        obtain rfl : t = 0 := by omega
        simp)
    (by
      rintro i s hik ⟨h1, h2, ⟨f, hf, hf2⟩, ⟨g, hg⟩, ⟨gp, hgp, hgp2⟩, ⟨hil, hiw⟩, hvl, hvw⟩
      have hmono := offs_mono (spOut onlyU cB B W) (show i + 1 ≤ k by omega)
      rw [offs_succ, spOut_length] at hmono
      have hfold : (W i).foldlM (fun s e => spRowAdd onlyU cB B.arrs (i : Int) e.1 (e.2 : Int) s) s.st
          = (spProds onlyU cB B W i).foldlM (fun s f => mmStep (i : Int) (f.1 + 0) f.2 s) s.st := by
        rw [spProds, foldlM_flatMap']
        apply foldlM_congr'
        intro s e he
        exact spRowAdd_eq hB onlyU cB i e (hW i hik e he) s
      obtain ⟨s1, e1, hinv⟩ := foldlM_inv (f := fun s (f : Int × R) => mmStep (i : Int) (f.1 + 0) f.2 s)
        (l := spProds onlyU cB B W i) (s := s.st)
        (fun pre s' => MmInv B.n i (offs (spOut onlyU cB B W) i) 0 s.st.ind pre s')
        (by
          refine ⟨by simp [h2], ⟨f, hf, fun c hc => ?_⟩, ⟨g, hg, fun c k hc => by simp at hc⟩,
            by simpa using Win.nil, rfl, fun q _ => rfl⟩
          have := hf2 c hc
          exact ⟨by omega, fun h => absurd h (by omega), fun h => by simp at h⟩)
        (by
          intro pre e suf s' hl' hP
          have hmem : e ∈ spProds onlyU cB B W i := by rw [hl']; simp
          have hr := spProds_range hB onlyU cB W i hmem
          refine mmStep_ok hP hr.1 (by omega) (by omega) ?_
          have hpre := firsts_prefix ((pre ++ [e]).map (·.1)) (suf.map (·.1))
          have : (pre ++ [e]).map (·.1) ++ suf.map (·.1) = (spProds onlyU cB B W i).map (·.1) := by
            rw [hl']; simp
          rw [this] at hpre
          have := hpre.length_le
          rw [hil]
          show offs (spOut onlyU cB B W) i + (firsts ((pre ++ [e]).map (·.1))).length ≤ _
          omega)
      obtain ⟨f', hf', hf2'⟩ := hinv.idx
      obtain ⟨g', hg', hg2'⟩ := hinv.sum
      have hpos : s1.pos = ((offs (spOut onlyU cB B W) (i + 1) : Nat) : Int) := by
        rw [hinv.pos, offs_succ, spOut_length]
      obtain ⟨p1, e2, r2⟩ := hgp.wr_nat s1.pos (i := i + 1) (by omega)
      have hr1 := r2.rd_nat (i := i) (by omega)
      have hr2 := r2.rd_nat (i := i + 1) (by omega)
      rw [Function.update_of_ne (by omega), hgp2 i (le_refl _)] at hr1
      rw [Function.update_self, hpos, offs_succ, spOut_length] at hr2
      rw [show ((i + 1 : Nat) : Int) = (i : Int) + 1 by omega] at e2 hr2
      have hwin : Win s1.ind (offs (spOut onlyU cB B W) i)
          (firsts ((spProds onlyU cB B W i).map (·.1))) := by
        have := hinv.win
        simpa using this
      obtain ⟨c, ec, ⟨g2, hg2⟩, w2, l2, fr2⟩ := copyOut_ok (n := B.n) (val := s.val)
        (S := fun c => colSum (spProds onlyU cB B W i) c.toNat) hg'
        (by
          intro c hc
          have hc' := mem_firsts.mp hc
          obtain ⟨e, he, rfl⟩ := List.mem_map.mp hc'
          have hr := spProds_range hB onlyU cB W i he
          refine ⟨hr.1, hr.2, ?_⟩
          rw [hg2' e.1.toNat e.1.toNat (by rw [Int.toNat_of_nonneg hr.1]; exact hc') (by omega), colAcc_eq_colSum])
        (firsts_nodup _) hwin (by rw [hinv.len, hil]; omega) (by rw [hvl]; omega)
      have ecol : (spOut onlyU cB B W i).map (·.1) = firsts ((spProds onlyU cB B W i).map (·.1)) := by
        simp [spOut, Function.comp_def]
      have eval : (spOut onlyU cB B W i).map (·.2)
          = (firsts ((spProds onlyU cB B W i).map (·.1))).map
              fun c => colSum (spProds onlyU cB B W i) c.toNat := by
        simp [spOut, Function.comp_def]
      refine ⟨⟨O (i + 1), { s1 with sum := c.1 }, p1, c.2⟩, ?_, rfl, hpos,
        ⟨f', hf', fun c hc => by have := (hf2' c hc).1; push_cast; omega⟩, ⟨g2, hg2⟩, ⟨_, r2, ?_⟩,
        ⟨hinv.len.trans hil, ?_⟩, l2.trans hvl, ?_⟩
      · unfold spFillRow
        rw [h1, hv i hik, hfold, e1]
        simp only [Option.map_some, Option.bind_eq_bind, Option.bind_some]
        rw [e2, Option.bind_some, hr1, Option.bind_some, hr2, Option.bind_some, ec]
        rfl
      · intro t ht
        by_cases e : t = i + 1
        · subst e; rw [Function.update_self, hpos]
        · rw [Function.update_of_ne e]; exact hgp2 t (by omega)
      · intro t ht
        by_cases e : t = i
        · subst e; rw [ecol]; exact hwin
        · refine (hiw t (by omega)).frame ?_
          intro q hq1 hq2
          refine hinv.frame q ?_
          have := offs_mono (spOut onlyU cB B W) (show t + 1 ≤ i by omega)
          rw [offs_succ] at this
          rw [List.length_map] at hq2
          omega
      · intro t ht
        by_cases e : t = i
        · subst e; rw [eval]; exact w2
        · refine (hvw t (by omega)).frame ?_
          intro q hq1 hq2
          refine fr2 q ?_
          have := offs_mono (spOut onlyU cB B W) (show t + 1 ≤ i by omega)
          rw [offs_succ] at this
          rw [List.length_map] at hq2
          omega)
  obtain ⟨g, hg, hg2⟩ := h5
  have hptr : s.ptr = (List.range (k + 1)).map (fun i => ((offs (spOut onlyU cB B W) i : Nat) : Int)) := by
    rw [hg.eq_map]
    apply List.map_congr_left
    intro i hi
    exact hg2 i (by have := List.mem_range.mp hi; omega)
  refine ⟨s.st.ind, s.val, ?_, h6.1, h7.1, h6.2, h7.2⟩
  unfold fillRows
  rw [show ((0 : Nat) : Int) = 0 from rfl] at e0
  simp only [Option.bind_eq_bind, Int.toNat_natCast]
  rw [e0, Option.bind_some, es, Option.bind_some, h2, hptr]

/-- the arrays written by the stage with values are those of a zero-based matrix -/
theorem fill_mkCsr {onlyU : Bool} {cB : R → R} {B : Csr R} {W : Nat → List (R × Nat)} {k : Nat}
    {ind' : List Int} {val' : List R} (hi : offs (spOut onlyU cB B W) k ≤ ind'.length)
    (hl : offs (spOut onlyU cB B W) k ≤ val'.length)
    (h1 : ∀ i, i < k → Win ind' (offs (spOut onlyU cB B W) i) ((spOut onlyU cB B W i).map (·.1)))
    (h2 : ∀ i, i < k → Win val' (offs (spOut onlyU cB B W) i) ((spOut onlyU cB B W i).map (·.2))) :
    (⟨k, B.n, 0, (List.range (k + 1)).map (fun i => ((offs (spOut onlyU cB B W) i : Nat) : Int)),
      ind'.take (offs (spOut onlyU cB B W) k), val'.take (offs (spOut onlyU cB B W) k)⟩ : Csr R)
      = mkCsr k B.n 0 (spOut onlyU cB B W) :=
  csr_of_win (by simp) hi hl (fun i h => by simpa using h1 i h) h2

end Verif
