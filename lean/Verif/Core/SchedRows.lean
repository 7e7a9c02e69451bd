/-
Threads that share one array, whose accesses do not depend on the values they read.
-/
import Verif.Core.Sched
import Verif.Core.Step

namespace Verif

variable {R α β : Type}

namespace ThP

/-- the program run alone on an array -/
def exec : ThP Int R α → List R → Option (α × List R)
  | .ret a, C => some (a, C)
  | .fail, _ => none
  | .read l k, C => (rd C l).bind fun v => (k v).exec C
  | .write l v k, C => (wr C l v).bind fun C => k.exec C

/-- the array afterwards -/
def exec1 (p : ThP Int R Unit) (C : List R) : Option (List R) := (p.exec C).map (·.2)

/-- whatever values it reads, the program accesses only cells in `own`, never fails, and returns a result
in `Q` -/
def Safe (own : Int → Prop) : ThP Int R α → (α → Prop) → Prop
  | .ret a, Q => Q a
  | .fail, _ => False
  | .read l k, Q => own l ∧ ∀ v, (k v).Safe own Q
  | .write l _ k, Q => own l ∧ k.Safe own Q

/-- `for(i = lo; i < hi; i += step) f i` -/
def forSP (lo hi step : Int) (f : Int → α → ThP Int R α) (s : α) : ThP Int R α :=
  forP 0 ((hi - lo + step - 1) / step) (fun t s => f (lo + step * t) s) s

theorem exec_bind (p : ThP Int R α) (f : α → ThP Int R β) (C : List R) :
    (p.bind f).exec C = (p.exec C).bind fun r => (f r.1).exec r.2 := by
  induction p generalizing C with
  | ret a => rfl
  | fail => rfl
  | read l k ih =>
    show (rd C l).bind _ = ((rd C l).bind _).bind _
    rw [Option.bind_assoc]
    exact congrArg _ (funext fun v => ih v C)
  | write l v k ih =>
    show (wr C l v).bind _ = ((wr C l v).bind _).bind _
    rw [Option.bind_assoc]
    exact congrArg _ (funext fun C => ih C)

theorem exec_lift (o : Option α) (C : List R) : (ThP.lift o : ThP Int R α).exec C = o.map fun a => (a, C) := by
  cases o <;> rfl

theorem exec_forPN (f : Int → α → ThP Int R α) (n : Nat) (i : Int) (s : α) (C : List R) :
    (forPN f n i s).exec C = forN (fun i s => (f i s.1).exec s.2) n i (s, C) := by
  induction n generalizing i s C with
  | zero => rfl
  | succ n ih =>
    show ((f i s).bind _).exec C = ((f i s).exec C).bind _
    rw [exec_bind]
    exact congrArg _ (funext fun r => ih _ _ _)

theorem exec_forP (lo hi : Int) (f : Int → α → ThP Int R α) (s : α) (C : List R) :
    (forP lo hi f s).exec C = forC lo hi (fun i s => (f i s.1).exec s.2) (s, C) :=
  exec_forPN f _ lo s C

theorem exec_unit (p : ThP Int R Unit) (C : List R) : p.exec C = (p.exec1 C).map fun C => ((), C) := by
  unfold exec1
  rw [Option.map_map]
  cases p.exec C <;> rfl

theorem exec1_bind (p : ThP Int R α) (f : α → ThP Int R Unit) (C : List R) :
    (p.bind f).exec1 C = (p.exec C).bind fun r => (f r.1).exec1 r.2 := by
  unfold exec1
  rw [exec_bind, Option.map_bind]
  rfl

theorem exec1_seq (p : ThP Int R Unit) (f : Unit → ThP Int R Unit) (C : List R) :
    (p.bind f).exec1 C = (p.exec1 C).bind (f ()).exec1 := by
  rw [exec1_bind, exec_unit]
  cases p.exec1 C <;> rfl

theorem exec1_lift (o : Option α) (f : α → ThP Int R Unit) (C : List R) :
    ((ThP.lift o).bind f).exec1 C = o.bind fun a => (f a).exec1 C := by
  cases o <;> rfl

theorem exec1_ret (C : List R) : (ThP.ret () : ThP Int R Unit).exec1 C = some C := rfl

theorem exec1_read (l : Int) (k : R → ThP Int R Unit) (C : List R) :
    (ThP.read l k).exec1 C = (rd C l).bind fun v => (k v).exec1 C := by
  unfold exec1
  show ((rd C l).bind _).map _ = _
  rw [Option.map_bind]; rfl

theorem exec1_write (l : Int) (v : R) (k : ThP Int R Unit) (C : List R) :
    (ThP.write l v k).exec1 C = (wr C l v).bind k.exec1 := by
  unfold exec1
  show ((wr C l v).bind _).map _ = _
  rw [Option.map_bind]; rfl

theorem exec1_forPN (f : Int → ThP Int R Unit) (n : Nat) (i : Int) (C : List R) :
    (forPN (fun i _ => f i) n i ()).exec1 C = forN (fun i C => (f i).exec1 C) n i C := by
  induction n generalizing i C with
  | zero => rfl
  | succ n ih =>
    show ((f i).bind _).exec1 C = ((f i).exec1 C).bind _
    rw [exec1_seq]
    exact congrArg _ (funext fun r => ih _ _)

theorem exec1_forP (lo hi : Int) (f : Int → ThP Int R Unit) (C : List R) :
    (forP lo hi (fun i _ => f i) ()).exec1 C = forC lo hi (fun i C => (f i).exec1 C) C :=
  exec1_forPN f _ lo C

theorem exec1_forSP (lo hi step : Int) (f : Int → ThP Int R Unit) (C : List R) :
    (forSP lo hi step (fun i _ => f i) ()).exec1 C = forS lo hi step (fun i C => (f i).exec1 C) C :=
  exec1_forP _ _ _ C

/-! ### safety -/

variable {own : Int → Prop}

theorem Safe.bind {p : ThP Int R α} {f : α → ThP Int R β} {P : α → Prop} {Q : β → Prop} (hp : p.Safe own P)
    (hf : ∀ a, P a → (f a).Safe own Q) : (p.bind f).Safe own Q := by
  induction p with
  | ret a => exact hf a hp
  | fail => exact hp
  | read l k ih => exact ⟨hp.1, fun v => ih v (hp.2 v)⟩
  | write l v k ih => exact ⟨hp.1, ih hp.2⟩

theorem Safe.lift {o : Option α} {f : α → ThP Int R β} {Q : β → Prop} {x : α} (h : o = some x)
    (hf : (f x).Safe own Q) : ((ThP.lift o).bind f).Safe own Q := by
  subst h; exact hf

theorem Safe.forPN {f : Int → α → ThP Int R α} (J : Int → α → Prop) (n : Nat) (lo : Int) (s : α) (h0 : J lo s)
    (hs : ∀ i s, lo ≤ i → i < lo + n → J i s → (f i s).Safe own (J (i + 1))) :
    (ThP.forPN f n lo s).Safe own (J (lo + n)) := by
  induction n generalizing lo s with
  | zero => simpa [ThP.forPN, Safe] using h0
  | succ n ih =>
    show ((f lo s).bind _).Safe own _
    refine Safe.bind (hs lo s (by omega) (by omega) h0) fun s' hJ => ?_
    have := ih (lo + 1) s' hJ (fun i s h1 h2 => hs i s (by omega) (by omega))
    rwa [show lo + 1 + (n : Int) = lo + ((n + 1 : Nat) : Int) by omega] at this

/-- loops without local state -/
theorem Safe.forU {f : Int → Unit → ThP Int R Unit} {lo hi : Int}
    (hs : ∀ i, lo ≤ i → i < hi → (f i ()).Safe own (fun _ => True)) :
    (ThP.forP lo hi f ()).Safe own (fun _ => True) :=
  Safe.forPN (J := fun _ _ => True) _ lo () trivial (fun i _ h1 h2 _ => hs i h1 (by omega))

theorem Safe.forSU {f : Int → Unit → ThP Int R Unit} {lo hi step : Int} (hstep : 0 < step)
    (hs : ∀ i, lo ≤ i → i < hi → (f i ()).Safe own (fun _ => True)) :
    (ThP.forSP lo hi step f ()).Safe own (fun _ => True) := by
  unfold forSP
  refine Safe.forU fun t h1 h2 => hs _ ?_ ?_
  · have := Int.mul_nonneg hstep.le h1
    omega
  · have h3 : t + 1 ≤ (hi - lo + step - 1) / step := by omega
    have h4 := (Int.le_ediv_iff_mul_le hstep).1 h3
    have h5 : (t + 1) * step = step * t + step := by rw [Int.add_mul, Int.mul_comm]; omega
    omega

theorem Safe.mono {p : ThP Int R α} {P Q : α → Prop} (h : ∀ a, P a → Q a) (hp : p.Safe own P) : p.Safe own Q := by
  induction p with
  | ret a => exact h a hp
  | fail => exact hp
  | read l k ih => exact ⟨hp.1, fun v => ih v (hp.2 v)⟩
  | write l v k ih => exact ⟨hp.1, ih hp.2⟩

theorem rd_update {C C' : List R} {l : Int} {v : R} (h : wr C l v = some C') :
    Function.update (rd C) l (some v) = rd C' := by
  funext x
  rw [rd_wr h]
  by_cases hx : x = l
  · subst hx; rw [Function.update_self, if_pos rfl]
  · rw [Function.update_of_ne hx, if_neg hx]

/-- a safe program runs, stays in its cells, and what it leaves there depends on those cells only -/
theorem Safe.run {p : ThP Int R α} {Q : α → Prop} (hp : p.Safe own Q) {C : List R}
    (hin : ∀ x, own x → 0 ≤ x ∧ x < (C.length : Int)) :
    ∃ a C', p.exec C = some (a, C') ∧ Q a ∧ C'.length = C.length ∧ (∀ x, ¬ own x → rd C' x = rd C x) ∧
      (∀ ro, p.wp own ro (rd C) (fun b m => b = a ∧ m = rd C')) ∧
      ∀ D : List R, D.length = C.length → (∀ x, own x → rd D x = rd C x) →
        ∃ D', p.exec D = some (a, D') ∧ D'.length = C.length ∧ (∀ x, own x → rd D' x = rd C' x) := by
  induction p generalizing C with
  | ret a =>
    exact ⟨a, C, rfl, hp, rfl, fun _ _ => rfl, fun _ => ⟨rfl, rfl⟩, fun D hl hD => ⟨D, rfl, hl, hD⟩⟩
  | fail => exact hp.elim
  | read l k ih =>
    obtain ⟨v, hv⟩ := Option.isSome_iff_exists.1 (rd_isSome_iff.2 (hin l hp.1))
    obtain ⟨a, C', e, hQ, hl, hf, hw, hD⟩ := ih v (hp.2 v) hin
    refine ⟨a, C', ?_, hQ, hl, hf, fun ro => ⟨.inl hp.1, v, hv, hw ro⟩, ?_⟩
    · show (rd C l).bind _ = _
      rw [hv]; exact e
    · intro D hDl hDe
      obtain ⟨D', e', h'⟩ := hD D hDl hDe
      refine ⟨D', ?_, h'⟩
      show (rd D l).bind _ = _
      rw [hDe l hp.1, hv]; exact e'
  | write l v k ih =>
    have hwr : ∀ D : List R, D.length = C.length → ∃ D1, wr D l v = some D1 ∧ D1.length = C.length := by
      intro D hDl
      have := hin l hp.1
      refine ⟨D.set l.toNat v, wr_some_iff.2 ⟨this.1, by omega, rfl⟩, by simpa using hDl⟩
    obtain ⟨C1, h1, l1⟩ := hwr C rfl
    obtain ⟨a, C', e, hQ, hl, hf, hw, hD⟩ := ih hp.2 (C := C1) (by rw [l1]; exact hin)
    refine ⟨a, C', ?_, hQ, by omega, ?_, fun ro => ⟨hp.1, ?_, ?_⟩, ?_⟩
    · show (wr C l v).bind _ = _
      rw [h1]; exact e
    · intro x hx
      rw [hf x hx, rd_wr h1, if_neg (by rintro rfl; exact hx hp.1)]
    · exact Option.isSome_iff_ne_none.1 (rd_isSome_iff.2 (hin l hp.1))
    · rw [rd_update h1]; exact hw ro
    · intro D hDl hDe
      obtain ⟨D1, d1, dl⟩ := hwr D hDl
      obtain ⟨D', e', h', h''⟩ := hD D1 (by omega) (fun x hx => by
        rw [rd_wr d1, rd_wr h1, hDe x hx])
      refine ⟨D', ?_, by omega, h''⟩
      show (wr D l v).bind _ = _
      rw [d1]; exact e'

end ThP

/-- arrays with the same cells -/
theorem list_of_rd {C D : List R} (h : ∀ x, rd C x = rd D x) : C = D := by
  apply List.ext_getElem?
  intro i
  have := h (i : Int)
  rwa [rd_ofNat, rd_ofNat] at this

/-- the rows in `S` are done: their cells are as the row, run on the initial array, leaves them -/
def RowsDoneB (m : Nat) (own : Nat → Int → Prop) (F : Nat → List R) (C0 : List R) (S : Nat → Prop) (C : List R) :
    Prop :=
  C.length = C0.length ∧ (∀ r, r < m → S r → ∀ x, own r x → rd C x = rd (F r) x) ∧
    ∀ x, (∀ r, r < m → S r → ¬ own r x) → rd C x = rd C0 x

section rows
variable {m : Nat} {own : Nat → Int → Prop} {P : Int → ThP Int R Unit} {C0 : List R}

/-- one more row -/
theorem rowsDoneB_step
    (hin : ∀ r x, r < m → own r x → 0 ≤ x ∧ x < (C0.length : Int))
    (hdisj : ∀ r r' x, r < m → r' < m → own r x → own r' x → r = r')
    (hsafe : ∀ r : Nat, r < m → (P r).Safe (own r) (fun _ => True)) (S : Nat → Prop) (i : Nat) (C : List R)
    (hi : i < m) (hS : ¬ S i) (h : RowsDoneB m own (fun r => ((P r).exec1 C0).getD []) C0 S C) :
    ∃ C', (P i).exec1 C = some C' ∧
      RowsDoneB m own (fun r => ((P r).exec1 C0).getD []) C0 (fun r => S r ∨ r = i) C' ∧
      ∀ ro, (P i).wp (own i) ro (rd C) (fun _ mem => mem = rd C') := by
  obtain ⟨h1, h2, h3⟩ := h
  have hown : ∀ x, own i x → rd C x = rd C0 x := fun x hx => h3 x fun r hr hSr hx' =>
    hS ((hdisj i r x hi hr hx hx') ▸ hSr)
  obtain ⟨a, E, e1, -, -, -, -, hD⟩ := (hsafe i hi).run (C := C0) (fun x => hin i x hi)
  obtain ⟨b, C', e2, -, l2, f2, w2, -⟩ := (hsafe i hi).run (C := C) (fun x hx => by
    rw [h1]; exact hin i x hi hx)
  obtain ⟨D', e3, -, hD'⟩ := hD C h1 hown
  rw [e2] at e3
  simp only [Option.some.injEq, Prod.mk.injEq] at e3
  obtain ⟨-, rfl⟩ := e3
  have hF : ((P i).exec1 C0).getD [] = E := by
    unfold ThP.exec1
    rw [e1]; rfl
  refine ⟨C', by unfold ThP.exec1; rw [e2]; rfl, ⟨by omega, ?_, ?_⟩,
    fun ro => ThP.wp_mono (fun _ _ h => h.2) (w2 ro)⟩
  · rintro r hr (hSr | rfl) x hx
    · rw [f2 x (fun hx' => hS ((hdisj i r x hi hr hx' hx) ▸ hSr)), h2 r hr hSr x hx]
    · rw [hD' x hx]; exact congrArg (rd · x) hF.symm
  · intro x hx
    rw [f2 x (hx i hi (.inr rfl)), h3 x fun r hr hSr => hx r hr (.inl hSr)]

theorem rowsDoneB_none {F : Nat → List R} : RowsDoneB m own F C0 (fun _ => False) C0 :=
  ⟨rfl, fun _ _ h => h.elim, fun _ _ => rfl⟩

theorem rowsDoneB_congr {F : Nat → List R} {S S' : Nat → Prop} {C : List R} (h : ∀ r, r < m → (S r ↔ S' r))
    (hC : RowsDoneB m own F C0 S C) : RowsDoneB m own F C0 S' C :=
  ⟨hC.1, fun r hr hS => hC.2.1 r hr ((h r hr).2 hS),
    fun x hx => hC.2.2 x fun r hr hS => hx r hr ((h r hr).1 hS)⟩

theorem rowsDoneB_uniq {F : Nat → List R} {C D : List R} (hC : RowsDoneB m own F C0 (fun r => r < m) C)
    (hD : RowsDoneB m own F C0 (fun r => r < m) D) : C = D := by
  obtain ⟨-, c2, c3⟩ := hC
  obtain ⟨-, d2, d3⟩ := hD
  apply list_of_rd
  intro x
  by_cases hx : ∃ r, r < m ∧ own r x
  · obtain ⟨r, hr, hx⟩ := hx
    rw [c2 r hr hr x hx, d2 r hr hr x hx]
  · push Not at hx
    rw [c3 x fun r hr _ => hx r hr, d3 x fun r hr _ => hx r hr]

/-- the rows of a list, one after the other -/
def listP (P : Int → ThP Int R Unit) : List Nat → ThP Int R Unit
  | [] => .ret ()
  | r :: l => (P r).bind fun _ => listP P l

/-- `omp parallel for`: thread `t < T` runs the iterations `asg t` -/
def loopP (T : Nat) (asg : Nat → List Nat) (P : Int → ThP Int R Unit) (t : Nat) : ThP Int R Unit :=
  if t < T then listP P (asg t) else .ret ()

/-- every iteration of `0 .. m-1` is run by one thread, once -/
def Assigns (m T : Nat) (asg : Nat → List Nat) : Prop := ((List.range T).flatMap asg).Perm (List.range m)

/-- **Rows with disjoint cells.**  The result is one array for all team sizes, chunkings, orders and
interleavings, also if the iterations are distributed to the threads in some other way. -/
theorem rows_schedules
    (hin : ∀ r x, r < m → own r x → 0 ≤ x ∧ x < (C0.length : Int))
    (hdisj : ∀ r r' x, r < m → r' < m → own r x → own r' x → r = r')
    (hsafe : ∀ r : Nat, r < m → (P r).Safe (own r) (fun _ => True)) :
    ∃ C1 : List R, C1.length = C0.length ∧ forC 0 (m : Int) (fun i C => (P i).exec1 C) C0 = some C1 ∧
      (∀ (w T : Nat) (ord : List Nat), 0 < T → (m : Int) * T ≤ Model.intMax w → ord.Perm (List.range T) →
        inTeam w ord T m () (fun i s => ((P i).exec1 s.2).bind fun C => some ((), C)) C0 = some C1) ∧
      (∀ w T : Nat, 0 < T → (m : Int) * T ≤ Model.intMax w →
        AllSchedules (teamP w T m () (fun i _ => P i)) (rd C0) (rd C1)) ∧
      ∀ T asg, Assigns m T asg → AllSchedules (loopP T asg P) (rd C0) (rd C1) := by
  have hstep := rowsDoneB_step hin hdisj hsafe
  generalize (fun r : Nat => ((P r).exec1 C0).getD []) = F at hstep
  have h0 : RowsDoneB m own F C0 (fun _ => False) C0 := rowsDoneB_none
  have hteam : ∀ (w T : Nat) (ord : List Nat), 0 < T → (m : Int) * T ≤ Model.intMax w → ord.Perm (List.range T) →
      ∃ C1, inTeam w ord T m () (fun i s => ((P i).exec1 s.2).bind fun C => some ((), C)) C0 = some C1 ∧
        RowsDoneB m own F C0 (fun r => r < m) C1 := by
    intro w T ord hT hov hord
    refine team_inv (w := w) hT hov hord (P := RowsDoneB m own F C0) (Q := fun _ _ => True) h0
      (fun _ => trivial) ?_
    intro S i C _ hi hS hC _
    obtain ⟨C', e, h, -⟩ := hstep S i C hi hS hC
    exact ⟨(), C', by simp only [e, Option.bind_some], h, trivial⟩
  -- in order
  obtain ⟨C1, e1, hC1⟩ : ∃ C1, forC 0 (m : Int) (fun i C => (P i).exec1 C) C0 = some C1 ∧
      RowsDoneB m own F C0 (fun r => r < m) C1 := by
    refine forC_inv_nat (P := fun k C => RowsDoneB m own F C0 (fun r => r < k) C) (n := m)
      (rowsDoneB_congr (fun r _ => by simp) h0) ?_
    intro k C hk hC
    obtain ⟨C', e, h, -⟩ := hstep _ k C hk (by omega) hC
    exact ⟨C', e, rowsDoneB_congr (fun r _ => by omega) h⟩
  refine ⟨C1, hC1.1, e1, ?_, ?_, ?_⟩
  · intro w T ord hT hov hord
    obtain ⟨C2, e, hC2⟩ := hteam w T ord hT hov hord
    rw [e, rowsDoneB_uniq hC2 hC1]
  · intro w T hT hov
    refine team_schedules hT hov own hdisj
      (fun S mem => ∃ C, mem = rd C ∧ RowsDoneB m own F C0 S C) (fun _ _ => True) ⟨C0, rfl, h0⟩ (fun _ => trivial)
      ?_ ?_ ?_ ?_
    · rintro S S' mem h ⟨C, rfl, hC⟩
      exact ⟨C, rfl, rowsDoneB_congr (fun r _ => h r) hC⟩
    · rintro S i mem l hi hS ⟨C, rfl, hC⟩ -
      obtain ⟨C', -, h, hw⟩ := hstep S i C hi hS hC
      refine ThP.wp_mono ?_ (hw _)
      rintro _ mem rfl
      exact ⟨⟨C', rfl, h⟩, trivial⟩
    · rintro S mem ⟨C, rfl, -, b, -⟩ r hr hS x hx
      rw [b r hr hS x hx, hC1.2.1 r hr hr x hx]
    · intro x hx
      rw [hC1.2.2 x fun r hr _ => hx r hr]
  · intro T asg hasg
    have hnd : ((List.range T).flatMap asg).Nodup := hasg.nodup_iff.2 List.nodup_range
    have hlt : ∀ t r, t < T → r ∈ asg t → r < m := by
      intro t r ht hr
      have := hasg.mem_iff.1 (List.mem_flatMap.2 ⟨t, List.mem_range.2 ht, hr⟩)
      exact List.mem_range.1 this
    rw [List.nodup_flatMap] at hnd
    have huni : ∀ t t' r, t < T → t' < T → r ∈ asg t → r ∈ asg t' → t = t' := by
      intro t t' r ht ht' hr hr'
      have hp := hnd.2
      rw [List.pairwise_iff_getElem] at hp
      by_contra hne
      rcases Nat.lt_or_gt_of_ne hne with h | h
      · have := hp t t' (by simpa using ht) (by simpa using ht') h
        simp only [List.getElem_range, Function.onFun] at this
        exact this hr hr'
      · have := hp t' t (by simpa using ht') (by simpa using ht) h
        simp only [List.getElem_range, Function.onFun] at this
        exact this hr' hr
    refine all_schedules (T := T) (own := fun t x => t < T ∧ ∃ r, r ∈ asg t ∧ own r x) ?_ ?_ ?_ ?_ ?_
    · intro t ht
      unfold loopP
      rw [if_neg (by omega)]
    · rintro t t' x ⟨ht, r, hr, hx⟩ ⟨ht', r', hr', hx'⟩
      have := hdisj r r' x (hlt t r ht hr) (hlt t' r' ht' hr') hx hx'
      subst this
      exact huni t t' r ht ht' hr hr'
    · exact fun t x h => h.1
    · intro t ht
      unfold loopP
      rw [if_pos ht]
      have key : ∀ (l : List Nat) (S : Nat → Prop) (C : List R), l.Nodup → (∀ r ∈ l, r < m ∧ ¬ S r) →
          (∀ r ∈ l, r ∈ asg t) → RowsDoneB m own F C0 S C →
          (listP P l).wp (fun x => t < T ∧ ∃ r, r ∈ asg t ∧ own r x)
            (fun x => ∀ t', ¬ (t' < T ∧ ∃ r, r ∈ asg t' ∧ own r x)) (rd C)
            (fun _ mem => ∃ C', mem = rd C' ∧ RowsDoneB m own F C0 (fun r => S r ∨ r ∈ l) C') := by
        intro l
        induction l with
        | nil =>
          intro S C _ _ _ hC
          exact ⟨C, rfl, rowsDoneB_congr (fun r _ => by simp) hC⟩
        | cons i l ih =>
          intro S C hn hl ha hC
          rw [List.nodup_cons] at hn
          obtain ⟨C', -, h, hw⟩ := hstep S i C (hl i (by simp)).1 (hl i (by simp)).2 hC
          show ((P i).bind _).wp _ _ _ _
          rw [ThP.wp_bind]
          refine ThP.wp_mono ?_ (ThP.wp_own (fun x hx => ⟨ht, i, ha i (by simp), hx⟩) (fun _ h => .inr h) (hw _))
          rintro _ mem rfl
          refine ThP.wp_mono ?_ (ih _ C' hn.2 (fun r hr => ⟨(hl r (by simp [hr])).1, ?_⟩)
            (fun r hr => ha r (by simp [hr])) h)
          · rintro _ mem ⟨C2, rfl, h2⟩
            exact ⟨C2, rfl, rowsDoneB_congr (fun r _ => by simp [or_assoc]) h2⟩
          · rintro (h' | rfl)
            · exact (hl r (by simp [hr])).2 h'
            · exact hn.1 hr
      refine ThP.wp_mono ?_ (key (asg t) (fun _ => False) C0 (hnd.1 t (List.mem_range.2 ht))
        (fun r hr => ⟨hlt t r ht hr, fun h => h⟩) (fun _ h => h) h0)
      rintro _ mem ⟨C, rfl, hC⟩ x ⟨-, r, hr, hx⟩
      have hr' := hlt t r ht hr
      rw [hC.2.1 r hr' (.inr hr) x hx, hC1.2.1 r hr' hr' x hx]
    · intro x hx
      refine (hC1.2.2 x fun r hr _ hx' => ?_).symm
      have := hasg.mem_iff.2 (List.mem_range.2 hr)
      obtain ⟨t, ht, hrt⟩ := List.mem_flatMap.1 this
      exact hx t ⟨List.mem_range.1 ht, r, hrt, hx'⟩

end rows

/-- **Threads with disjoint cells.** -/
theorem threads_schedules {T : Nat} {own : Nat → Int → Prop} {Q : Nat → ThP Int R Unit} {C0 : List R}
    (hin : ∀ t x, t < T → own t x → 0 ≤ x ∧ x < (C0.length : Int))
    (hdisj : ∀ t t' x, t < T → t' < T → own t x → own t' x → t = t')
    (hsafe : ∀ t : Nat, t < T → (Q t).Safe (own t) (fun _ => True)) :
    ∃ C1 : List R, C1.length = C0.length ∧
      (∀ ord : List Nat, ord.Perm (List.range T) → ord.foldlM (fun C t => (Q t).exec1 C) C0 = some C1) ∧
      AllSchedules (fun t => if t < T then Q t else .ret ()) (rd C0) (rd C1) := by
  have hQ : ∀ t : Nat, (fun i : Int => Q i.toNat) (t : Int) = Q t := fun t => by simp
  obtain ⟨C1, hl, e1, -, -, hloop⟩ := rows_schedules (m := T) (own := own) (P := fun i => Q i.toNat) (C0 := C0)
    hin hdisj (fun r hr => by rw [Int.toNat_natCast]; exact hsafe r hr)
  refine ⟨C1, hl, ?_, ?_⟩
  · intro ord hord
    have hstep := rowsDoneB_step (P := fun i => Q i.toNat) hin hdisj (fun r hr => by rw [Int.toNat_natCast]; exact hsafe r hr)
    generalize (fun r : Nat => (((fun i : Int => Q i.toNat) (r : Int)).exec1 C0).getD []) = F at hstep
    have key : ∀ (l : List Nat) (S : Nat → Prop) (C : List R), l.Nodup → (∀ r ∈ l, r < T ∧ ¬ S r) →
        RowsDoneB T own F C0 S C → ∃ C', l.foldlM (fun C t => (Q t).exec1 C) C = some C' ∧
          RowsDoneB T own F C0 (fun r => S r ∨ r ∈ l) C' := by
      intro l
      induction l with
      | nil =>
        intro S C _ _ hC
        exact ⟨C, rfl, rowsDoneB_congr (fun r _ => by simp) hC⟩
      | cons i l ih =>
        intro S C hn hl hC
        rw [List.nodup_cons] at hn
        obtain ⟨C', e, h, -⟩ := hstep S i C (hl i (by simp)).1 (hl i (by simp)).2 hC
        obtain ⟨C2, e2, h2⟩ := ih _ C' hn.2 (fun r hr => ⟨(hl r (by simp [hr])).1, by
          rintro (h' | rfl)
          · exact (hl r (by simp [hr])).2 h'
          · exact hn.1 hr⟩) h
        refine ⟨C2, ?_, rowsDoneB_congr (fun r _ => by simp [or_assoc]) h2⟩
        rw [List.foldlM_cons]
        have e' : (Q i).exec1 C = some C' := by rw [← hQ]; exact e
        rw [e']
        exact e2
    obtain ⟨D, eD, hD⟩ := key ord (fun _ => False) C0 (hord.nodup_iff.2 List.nodup_range)
      (fun r hr => ⟨List.mem_range.1 (hord.mem_iff.1 hr), fun h => h⟩) rowsDoneB_none
    obtain ⟨E, eE, hE⟩ : ∃ C1, forC 0 (T : Int) (fun i C => ((fun i : Int => Q i.toNat) i).exec1 C) C0 = some C1 ∧
        RowsDoneB T own F C0 (fun r => r < T) C1 := by
      refine forC_inv_nat (P := fun k C => RowsDoneB T own F C0 (fun r => r < k) C) (n := T)
        (rowsDoneB_congr (fun r _ => by simp) rowsDoneB_none) ?_
      intro k C hk hC
      obtain ⟨C', e, h, -⟩ := hstep _ k C hk (by omega) hC
      exact ⟨C', e, rowsDoneB_congr (fun r _ => by omega) h⟩
    rw [e1] at eE
    cases eE
    rw [eD]
    congr 1
    refine rowsDoneB_uniq (rowsDoneB_congr (fun r hr => ?_) hD) hE
    simp only [false_or]
    rw [hord.mem_iff, List.mem_range]
  · have := hloop T (fun t => [t]) (by unfold Assigns; simp)
    have e : loopP T (fun t => [t]) (fun i => Q i.toNat) = fun t => if t < T then (Q t).bind fun _ => .ret () else .ret () := by
      funext t
      unfold loopP listP
      rw [Int.toNat_natCast]
      rfl
    rw [e] at this
    have e2 : ∀ p : ThP Int R Unit, (p.bind fun _ => .ret ()) = p := by
      intro p
      induction p with
      | ret a => rfl
      | fail => rfl
      | read l k ih => exact congrArg _ (funext ih)
      | write l v k ih => exact congrArg _ ih
    simp only [e2] at this
    exact this

end Verif
