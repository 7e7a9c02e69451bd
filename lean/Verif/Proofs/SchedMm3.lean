import Verif.Proofs.SchedMm2

/-!
Every interleaving of the sparse times dense product.
-/

namespace Verif
open Model

variable {R : Type}

theorem ThP.bind_assocX {L V α β γ : Type} (p : ThP L V α) (f : α → ThP L V β) (g : β → ThP L V γ) :
    (p.bind f).bind g = p.bind fun a => (f a).bind g := by
  induction p with
  | ret a => rfl
  | fail => rfl
  | read l k ih =>
    show ThP.read l _ = ThP.read l _
    exact congrArg _ (funext fun v => ih v)
  | write l v k ih =>
    show ThP.write l v _ = ThP.write l v _
    exact congrArg _ ih

theorem listP_exec (P : Int → ThP Int R Unit) (l : List Nat) (C : List R) :
    (listP P l).exec1 C = l.foldlM (fun C (r : Nat) => (P r).exec1 C) C := by
  induction l generalizing C with
  | nil => rfl
  | cons r l ih =>
    show ((P r).bind _).exec1 C = _
    rw [ThP.exec1_seq, List.foldlM_cons]
    exact congrArg _ (funext fun C => ih C)

theorem foldlM_flatMapX {σ α β : Type} (g : α → List β) (f : σ → β → Option σ) (l : List α) (s : σ) :
    (l.flatMap g).foldlM f s = l.foldlM (fun s a => (g a).foldlM f s) s := by
  induction l generalizing s with
  | nil => rfl
  | cons a l ih =>
    rw [List.flatMap_cons, List.foldlM_append, List.foldlM_cons]
    exact congrArg _ (funext fun s => ih s)

theorem foldlM_congrX {σ α : Type} {f g : σ → α → Option σ} {l : List α} {s : σ} (h : ∀ s, ∀ a ∈ l, f s a = g s a) :
    l.foldlM f s = l.foldlM g s := by
  induction l generalizing s with
  | nil => rfl
  | cons a l ih =>
    rw [List.foldlM_cons, List.foldlM_cons, h s a (by simp)]
    exact congrArg _ (funext fun s => ih fun s b hb => h s b (by simp [hb]))

/-- `rows_schedules`, and the threads one after another when the iterations are distributed in some way -/
theorem rows_schedules' {m : Nat} {own : Nat → Int → Prop} {P : Int → ThP Int R Unit} {C0 : List R}
    (hin : ∀ r x, r < m → own r x → 0 ≤ x ∧ x < (C0.length : Int))
    (hdisj : ∀ r r' x, r < m → r' < m → own r x → own r' x → r = r')
    (hsafe : ∀ r : Nat, r < m → (P r).Safe (own r) (fun _ => True)) :
    ∃ C1 : List R, C1.length = C0.length ∧ forC 0 (m : Int) (fun i C => (P i).exec1 C) C0 = some C1 ∧
      (∀ (w T : Nat) (ord : List Nat), 0 < T → (m : Int) * T ≤ Model.intMax w → ord.Perm (List.range T) →
        inTeam w ord T m () (fun i s => ((P i).exec1 s.2).bind fun C => some ((), C)) C0 = some C1) ∧
      (∀ w T : Nat, 0 < T → (m : Int) * T ≤ Model.intMax w →
        AllSchedules (teamP w T m () (fun i _ => P i)) (rd C0) (rd C1)) ∧
      (∀ T asg, Assigns m T asg → AllSchedules (loopP T asg P) (rd C0) (rd C1)) ∧
      ∀ (T : Nat) (asg : Nat → List Nat) (ord : List Nat), Assigns m T asg → ord.Perm (List.range T) →
        ord.foldlM (fun C t => (listP P (asg t)).exec1 C) C0 = some C1 := by
  obtain ⟨C1, hl, e1, h2, h3, h4⟩ := rows_schedules hin hdisj hsafe
  obtain ⟨C2, -, h5, -⟩ := threads_schedules (Q := fun r => P r) hin hdisj hsafe
  have e : C2 = C1 := by
    have := h5 (List.range m) (List.Perm.refl _)
    rw [forC_eq_foldlM] at e1
    rw [e1] at this
    exact (Option.some.inj this).symm
  refine ⟨C1, hl, e1, h2, h3, h4, fun T asg ord hasg hord => ?_⟩
  have := h5 (ord.flatMap asg) ((hord.flatMap_right asg).trans hasg)
  rw [foldlM_flatMapX, e] at this
  rw [← this]
  exact congrArg (fun f => ord.foldlM f C0) (funext fun C => funext fun t => listP_exec _ _ _)

section team
variable [Zero R] [Add R] [Mul R] {cj : R → R} {alpha beta : R} {A : Csr R} {B : List R} {n ldb ldc : Nat}

/-- first block of thread `t` -/
def mmBlk0 (n T t : Nat) : Nat := (bnd4 n T t + 3) / 4

/-- the blocks of thread `t` -/
def mmBlks (n T t : Nat) : List Nat := List.range' (mmBlk0 n T t) (mmBlk0 n T (t + 1) - mmBlk0 n T t)

theorem mmBlk0_mono (n T t : Nat) : mmBlk0 n T t ≤ mmBlk0 n T (t + 1) := by
  have := bnd4_mono n T t
  unfold mmBlk0
  omega

theorem mmBlks_assign {n T : Nat} (hT : 0 < T) : Assigns ((n + 3) / 4) T (mmBlks n T) := by
  unfold Assigns
  have key : ∀ k, (List.range k).flatMap (mmBlks n T) = List.range (mmBlk0 n T k) := by
    intro k
    induction k with
    | zero =>
      have : mmBlk0 n T 0 = 0 := by unfold mmBlk0 bnd4; simp
      rw [this]; rfl
    | succ k ih =>
      rw [List.range_succ, List.flatMap_append, ih]
      show _ ++ (mmBlks n T k ++ []) = _
      rw [List.append_nil]
      unfold mmBlks
      rw [List.range_eq_range', List.range_eq_range']
      have h := mmBlk0_mono n T k
      have e := List.range'_append_1 (s := 0) (m := mmBlk0 n T k) (n := mmBlk0 n T (k + 1) - mmBlk0 n T k)
      rw [Nat.zero_add] at e
      rw [e]
      congr 1
      omega
  rw [key T]
  have : mmBlk0 n T T = (n + 3) / 4 := by
    unfold mmBlk0 bnd4
    rw [Nat.mul_div_cancel _ hT]
    omega
  rw [this]

theorem mmBlks_loop (V : Vec R) (K : Nat) (a : MmIn R) (ha : a.n = n) (b0 : Nat) :
    ∀ (N i : Nat) (s : Int), (∀ k, i ≤ k → k < i + N → 4 * (b0 + k) < n) → (N ≠ 0 → s = 4) →
      ((ThP.forPN (fun (t : Int) s => mmColBlkP V K a (((4 * b0 : Nat) : Int) + 4 * t) s) N (i : Int) s).bind
        fun _ => .ret ()) = listP (mmBlkP V K a n) (List.range' (b0 + i) N) := by
  intro N
  induction N with
  | zero => intro i s _ _; rfl
  | succ N ih =>
    intro i s hk hs
    have hs : s = 4 := hs (by omega)
    subst hs
    have hi := hk i le_rfl (by omega)
    have ej : ((4 * b0 : Nat) : Int) + 4 * (i : Int) = ((4 * (b0 + i) : Nat) : Int) := by push_cast; ring
    have eb : (4 : Int) * ((b0 + i : Nat) : Int) = ((4 * (b0 + i) : Nat) : Int) := by push_cast; ring
    rw [List.range'_succ]
    show ((mmColBlkP V K a (((4 * b0 : Nat) : Int) + 4 * (i : Int)) 4).bind _).bind _ =
      (mmBlkP V K a n ((b0 + i : Nat) : Int)).bind fun _ => listP (mmBlkP V K a n) (List.range' (b0 + i + 1) N)
    unfold mmColBlkP mmBlkP
    rw [ej, eb, Int.toNat_natCast, ha, mmBlkCols_eq hi, ThP.bind_assocX, ThP.bind_assocX]
    refine congrArg _ (funext fun _ => ?_)
    show (ThP.forPN _ N ((i : Int) + 1) _).bind _ = _
    have := ih (i + 1) ((blk4 n (4 * (b0 + i)) : Nat) : Int) (fun k h1 h2 => hk k (by omega) (by omega)) (fun hN => by
      have := hk (i + 1) (by omega) (by omega)
      unfold blk4
      omega)
    rw [Nat.cast_succ, show b0 + (i + 1) = b0 + i + 1 by omega] at this
    unfold mmColBlkP mmBlkP at this
    rw [ha] at this
    exact this

theorem mmColKtThreadP_blks {w T : Nat} (hT : 0 < T) (V : Vec R) (K : Nat) (a : MmIn R) (ha : a.n = n)
    (hov : (n : Int) * T ≤ intMax w) {t : Nat} (ht : t < T) :
    mmColKtThreadP w T V K a t = listP (mmBlkP V K a n) (mmBlks n T t) := by
  have c1 : chk w (a.n * (t : Int)) = some ((n * t : Nat) : Int) := by
    rw [ha, show (n : Int) * (t : Int) = ((n * t : Nat) : Int) by push_cast; ring]
    refine chk_of_le (by omega) (le_trans ?_ hov)
    exact_mod_cast Nat.mul_le_mul_left n ht.le
  have c2 : chk w (a.n * ((t : Int) + 1)) = some ((n * (t + 1) : Nat) : Int) := by
    rw [ha, show (n : Int) * ((t : Int) + 1) = ((n * (t + 1) : Nat) : Int) by push_cast; ring]
    refine chk_of_le (by omega) (le_trans ?_ hov)
    exact_mod_cast Nat.mul_le_mul_left n (show t + 1 ≤ T from ht)
  have d1 : ∀ x : Nat, roundUp4 a.n (((n * x : Nat) : Int).tdiv T) = ((bnd4 n T x : Nat) : Int) := by
    intro x
    rw [Int.tdiv_eq_ediv_of_nonneg (by omega), ha, show ((n * x : Nat) : Int) / (T : Int) = ((n * x / T : Nat) : Int) from
      (Int.natCast_ediv _ _).symm, roundUp4_nat]
    rfl
  unfold mmColKtThreadP
  rw [c1]
  show (ThP.bind (ThP.lift (chk w (a.n * ((t : Int) + 1)))) _) = _
  rw [c2]
  show (ThP.forSP (roundUp4 a.n (((n * t : Nat) : Int).tdiv T)) (roundUp4 a.n (((n * (t + 1) : Nat) : Int).tdiv T)) 4
    (mmColBlkP V K a) 4).bind _ = _
  rw [d1, d1]
  have hm := bnd4_mono n T t
  have hle : bnd4 n T (t + 1) ≤ n := by unfold bnd4; omega
  unfold ThP.forSP ThP.forP mmBlks
  by_cases hlt : bnd4 n T t < bnd4 n T (t + 1)
  · have h4 : bnd4 n T t = 4 * mmBlk0 n T t := by
      unfold mmBlk0
      unfold bnd4 at hlt hle ⊢
      omega
    have hN : (((bnd4 n T (t + 1) : Nat) : Int) - (bnd4 n T t : Nat) + 4 - 1) / 4 - 0
        = ((mmBlk0 n T (t + 1) - mmBlk0 n T t : Nat) : Int) := by
      have := mmBlk0_mono n T t
      rw [h4]
      unfold mmBlk0 at *
      omega
    rw [hN, Int.toNat_natCast, h4]
    exact mmBlks_loop V K a ha (mmBlk0 n T t) _ 0 4 (fun k _ hk => by
      unfold mmBlk0 at *
      omega) (fun _ => rfl)
  · have e : bnd4 n T (t + 1) = bnd4 n T t := by omega
    have e' : mmBlk0 n T (t + 1) - mmBlk0 n T t = 0 := by unfold mmBlk0; rw [e]; omega
    rw [e', e]
    have hN : (((bnd4 n T t : Nat) : Int) - (bnd4 n T t : Nat) + 4 - 1) / 4 - 0 = 0 := by omega
    rw [hN]
    rfl

/-- **All kernels, all schedules.** -/
theorem mm_schedules {ker : MmKernel R} (hker : ∀ K V, ker = .kt K V → 0 < K) {col : Bool} (hA : A.WF)
    (hB : MmReads col A B n ldb) (hldc : if col then A.m ≤ ldc else n ≤ ldc) {C0 : List R}
    (hC : ∀ i j : Nat, i < A.m → j < n → denseOff col ldc i j < C0.length) :
    ∃ C1 : List R, C1.length = C0.length ∧
      (∀ (w T : Nat) (ord : List Nat), 0 < T → ((if col then n else A.m : Nat) : Int) * T ≤ intMax w →
        ord.Perm (List.range T) →
        mmKernel w ⟨T, ord⟩ ker col (mmOf cj alpha beta A B n ldb ldc) C0 = some C1) ∧
      ∀ w T : Nat, 0 < T → ((if col then n else A.m : Nat) : Int) * T ≤ intMax w →
        AllSchedules (mmTeamP w T ker col (mmOf cj alpha beta A B n ldb ldc)) (rd C0) (rd C1) := by
  have hcol : col = true → ∀ j x, j < n → ownCol A.m ldc j x → 0 ≤ x ∧ x < (C0.length : Int) := by
    rintro rfl j x hj ⟨i, hi, rfl⟩
    have := hC i j hi hj
    unfold denseOff at this
    rw [if_pos rfl] at this
    have e : (i : Int) + j * ldc = ((i + ldc * j : Nat) : Int) := by push_cast; ring
    rw [e]; omega
  have hrow : col = false → ∀ i x, i < A.m → ownRow n ldc i x → 0 ≤ x ∧ x < (C0.length : Int) := by
    rintro rfl i x hi ⟨k, hk, rfl⟩
    have := hC i k hi hk
    unfold denseOff at this
    rw [if_neg (by decide)] at this
    have e : (i : Int) * ldc + k = ((i * ldc + k : Nat) : Int) := by push_cast; ring
    rw [e]; omega
  cases ker with
  | ref =>
    cases col with
    | true =>
      obtain ⟨C1, hl, -, h2, h3, -⟩ := rows_schedules' (m := n) (own := ownCol A.m ldc)
        (P := mmColP (mmOf cj alpha beta A B n ldb ldc)) (C0 := C0) (hcol rfl)
        (fun r r' x _ _ h1 h2 => ownCol_inj hldc h1 h2) (fun r hr => mmColP_safe hA hB hr)
      refine ⟨C1, hl, fun w T ord hT hov hord => ?_, h3⟩
      rw [← h2 w T ord hT hov hord]
      show inTeam w ord T n () _ C0 = _
      refine congrArg (fun f => inTeam w ord T n () f C0) (funext fun j => funext fun s => ?_)
      rw [mmColP_exec]
      rfl
    | false =>
      obtain ⟨C1, hl, -, h2, h3, -⟩ := rows_schedules' (m := A.m) (own := ownRow n ldc)
        (P := mmRowOneP (mmOf cj alpha beta A B n ldb ldc)) (C0 := C0) (hrow rfl)
        (fun r r' x _ _ h1 h2 => ownRow_inj hldc h1 h2) (fun r hr => mmRowOneP_safe hA hB hr)
      refine ⟨C1, hl, fun w T ord hT hov hord => ?_, h3⟩
      rw [← h2 w T ord hT hov hord]
      show inTeam w ord T A.m () _ C0 = _
      refine congrArg (fun f => inTeam w ord T A.m () f C0) (funext fun j => funext fun s => ?_)
      rw [mmRowOneP_exec]
      rfl
  | kt K V =>
    have hK := hker K V rfl
    cases col with
    | true =>
      have hin : ∀ r x, r < (n + 3) / 4 → ownBlk A.m n ldc r x → 0 ≤ x ∧ x < (C0.length : Int) := by
        rintro b x hb ⟨q, i, hq, hi, rfl⟩
        refine hcol rfl (4 * b + q) _ ?_ ⟨i, hi, by ring⟩
        unfold blk4 at hq
        omega
      obtain ⟨C1, hl, -, -, -, h4, h5⟩ := rows_schedules' (m := (n + 3) / 4) (own := ownBlk A.m n ldc)
        (P := mmBlkP V K (mmOf cj alpha beta A B n ldb ldc) n) (C0 := C0) hin
        (fun r r' x _ _ h1 h2 => ownBlk_inj hldc h1 h2) (fun r hr => mmBlkP_safe V hK hA hB (by omega))
      refine ⟨C1, hl, fun w T ord hT hov hord => ?_, fun w T hT hov => ?_⟩
      · rw [← h5 T _ ord (mmBlks_assign hT) hord]
        show ord.foldlM _ C0 = _
        refine foldlM_congrX fun C t ht => ?_
        rw [← mmColKtThreadP_blks hT V K (mmOf cj alpha beta A B n ldb ldc) rfl hov
          (List.mem_range.1 (hord.mem_iff.1 ht)), mmColKtThreadP_exec]
      · have := h4 T _ (mmBlks_assign (n := n) hT)
        have e : mmTeamP w T (.kt K V) true (mmOf cj alpha beta A B n ldb ldc)
            = loopP T (mmBlks n T) (mmBlkP V K (mmOf cj alpha beta A B n ldb ldc) n) := by
          funext t
          show (if t < T then _ else _) = if t < T then _ else _
          by_cases ht : t < T
          · rw [if_pos ht, if_pos ht]
            exact mmColKtThreadP_blks hT V K _ rfl hov ht
          · rw [if_neg ht, if_neg ht]
        rw [e]
        exact this
    | false =>
      obtain ⟨C1, hl, -, h2, h3, -⟩ := rows_schedules' (m := A.m) (own := ownRow n ldc)
        (P := mmRowKtOneP K (mmOf cj alpha beta A B n ldb ldc)) (C0 := C0) (hrow rfl)
        (fun r r' x _ _ h1 h2 => ownRow_inj hldc h1 h2) (fun r hr => mmRowKtOneP_safe hK hA hB hr)
      refine ⟨C1, hl, fun w T ord hT hov hord => ?_, h3⟩
      rw [← h2 w T ord hT hov hord]
      show inTeam w ord T A.m () _ C0 = _
      refine congrArg (fun f => inTeam w ord T A.m () f C0) (funext fun j => funext fun s => ?_)
      rw [mmRowKtOneP_exec]
      rfl

/-- the scaling loop -/
theorem scale_schedules [DecidableEq R] {col : Bool} {m n ld : Nat} (hld : if col then m ≤ ld else n ≤ ld) (beta : R)
    {C0 : List R} (hC : ∀ i j : Nat, i < m → j < n → denseOff col ld i j < C0.length) :
    ∃ C1 : List R, C1.length = C0.length ∧ scaleDense col m n ld beta C0 = some C1 ∧
      ∀ T asg, Assigns (if col then n else m) T asg →
        AllSchedules (loopP T asg (scaleLineP col m n ld beta)) (rd C0) (rd C1) := by
  have hown : ∀ (own : Int → Prop) (i j : Int), own (mmIx col ld i j) → (scaleCellP col ld beta i j).Safe own
      (fun _ => True) := by
    intro own i j h
    unfold scaleCellP
    by_cases hb : beta = 0
    · rw [if_pos hb]; exact ⟨h, trivial⟩
    · rw [if_neg hb]; exact updP_safe h _
  have hexec := scaleLineP_exec (R := R) col m n ld beta C0
  cases col with
  | true =>
    obtain ⟨C1, hl, h1, -, -, h4⟩ := rows_schedules (m := n) (own := ownCol m ld)
      (P := scaleLineP true m n ld beta) (C0 := C0) (by
        rintro j x hj ⟨i, hi, rfl⟩
        have := hC i j hi hj
        unfold denseOff at this
        rw [if_pos rfl] at this
        have e : (i : Int) + j * ld = ((i + ld * j : Nat) : Int) := by push_cast; ring
        rw [e]; omega)
      (fun r r' x _ _ h1 h2 => ownCol_inj hld h1 h2) (by
        intro j hj
        refine ThP.Safe.forU fun i h0 h1 => hown _ i j ?_
        exact ⟨i.toNat, by omega, by rw [Int.toNat_of_nonneg h0]; rfl⟩)
    refine ⟨C1, hl, ?_, h4⟩
    rw [← hexec]; exact h1
  | false =>
    obtain ⟨C1, hl, h1, -, -, h4⟩ := rows_schedules (m := m) (own := ownRow n ld)
      (P := scaleLineP false m n ld beta) (C0 := C0) (by
        rintro i x hi ⟨k, hk, rfl⟩
        have := hC i k hi hk
        unfold denseOff at this
        rw [if_neg (by decide)] at this
        have e : (i : Int) * ld + k = ((i * ld + k : Nat) : Int) := by push_cast; ring
        rw [e]; omega)
      (fun r r' x _ _ h1 h2 => ownRow_inj hld h1 h2) (by
        intro i hi
        refine ThP.Safe.forU fun j h0 h1 => hown _ i j ?_
        exact ⟨j.toNat, by omega, by rw [Int.toNat_of_nonneg h0]; rfl⟩)
    refine ⟨C1, hl, ?_, h4⟩
    rw [← hexec]; exact h1

end team

end Verif
