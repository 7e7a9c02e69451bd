/-
Proofs about the loads, stores and scatters of the vector primitives.
-/
import Verif.Proofs.KtLanes

namespace Verif
namespace Proofs
open Model Spec

variable {T : Type}

/-- a register filled lane by lane -/
theorem mapM_range_iff {n : Nat} {f : Nat → Option T} {v : List T} :
    (List.range n).mapM f = some v ↔ v.length = n ∧ ∀ i, i < n → f i = v[i]? := by
  induction n generalizing v with
  | zero =>
    constructor
    · intro h
      have : v = [] := by simpa using h.symm
      subst this
      exact ⟨rfl, fun i hi => absurd hi (by omega)⟩
    · rintro ⟨h, _⟩
      have : v = [] := List.length_eq_zero_iff.1 h
      subst this
      rfl
  | succ n ih =>
    rw [List.range_succ, List.mapM_append]
    simp only [Option.bind_eq_bind, Option.bind_eq_some_iff, List.mapM_cons, List.mapM_nil, Option.pure_def,
      Option.some.injEq]
    constructor
    · rintro ⟨u, hu, x, ⟨y, hy, _, rfl, rfl⟩, rfl⟩
      obtain ⟨h1, h2⟩ := ih.1 hu
      refine ⟨by simp [h1], fun i hi => ?_⟩
      by_cases hin : i < n
      · rw [h2 i hin, List.getElem?_append_left (by omega)]
      · have : i = n := by omega
        subst this
        rw [List.getElem?_append_right (by omega), h1, hy]
        simp
    · rintro ⟨h1, h2⟩
      have hv : v = v.take n ++ [v[n]'(by omega)] := by
        rw [← List.take_succ_eq_append_getElem (by omega), List.take_of_length_le (by omega)]
      refine ⟨v.take n, ih.2 ⟨by simp [h1], fun i hi => ?_⟩, [v[n]'(by omega)], ⟨v[n]'(by omega), ?_, [], rfl, rfl⟩,
        hv.symm⟩
      · rw [h2 i (by omega), List.getElem?_take_of_lt hi]
      · rw [h2 n (by omega), List.getElem?_eq_getElem]

/-- the register of the parts of the elements -/
theorem mapM_pairs {n : Nat} {h : Nat → Option T} {g : Nat → Option (T × T)}
    (h0 : ∀ k, k < n → h (2 * k) = (g k).map (·.1)) (h1 : ∀ k, k < n → h (2 * k + 1) = (g k).map (·.2)) :
    (List.range (2 * n)).mapM h = ((List.range n).mapM g).map inter := by
  induction n with
  | zero => rfl
  | succ n ih =>
    rw [show 2 * (n + 1) = 2 * n + 1 + 1 by ring, List.range_succ, List.range_succ, List.range_succ (n := n)]
    simp only [List.mapM_append, ih (fun k hk => h0 k (by omega)) (fun k hk => h1 k (by omega)), List.mapM_cons,
      List.mapM_nil, h0 n (by omega), h1 n (by omega)]
    cases (List.range n).mapM g with
    | none => rfl
    | some u =>
      cases g n with
      | none => rfl
      | some x => simp [inter]

theorem inter_get (z : List (T × T)) (k : Nat) :
    (inter z)[2 * k]? = z[k]?.map (·.1) ∧ (inter z)[2 * k + 1]? = z[k]?.map (·.2) := by
  induction z generalizing k with
  | nil => simp [inter]
  | cons a z ih =>
    rw [inter_cons]
    cases k with
    | zero => simp
    | succ k =>
      have := ih k
      rw [show 2 * (k + 1) = 2 * k + 1 + 1 by ring]
      simpa using this

theorem rd_inter (z : List (T × T)) (p : Int) :
    rd (inter z) (2 * p) = (rd z p).map (·.1) ∧ rd (inter z) (2 * p + 1) = (rd z p).map (·.2) := by
  by_cases hp : 0 ≤ p
  · obtain ⟨k, rfl⟩ := Int.eq_ofNat_of_zero_le hp
    rw [rd_eq hp, rd_eq (by omega), rd_eq (by omega),
      show (2 * (k : Int)).toNat = 2 * k by omega, show (2 * (k : Int) + 1).toNat = 2 * k + 1 by omega]
    simpa using inter_get z k
  · rw [rd_neg (by omega), rd_neg (by omega), rd_neg (by omega)]
    simp

theorem par0 (k : Nat) : 2 * k / 2 = k ∧ 2 * k % 2 = 0 ∧ (2 * k + 1) / 2 = k ∧ (2 * k + 1) % 2 = 1 := by omega

theorem load_pairs (w : Bsz) (t : LaneTy) (mem : List (T × T)) (p : Int) :
    ktLoadu w t (inter mem) (2 * p)
      = ((List.range (elemCount w t)).mapM fun (k : Nat) => rd mem (p + k)).map inter := by
  unfold ktLoadu
  rw [laneCount_two]
  apply mapM_pairs
  · intro k _
    rw [show 2 * p + ((2 * k : Nat) : Int) = 2 * (p + k) by push_cast; ring, (rd_inter mem _).1]
  · intro k _
    rw [show 2 * p + ((2 * k + 1 : Nat) : Int) = 2 * (p + k) + 1 by push_cast; ring, (rd_inter mem _).2]

theorem set_pairs (w : Bsz) (t : LaneTy) (mem : List (T × T)) (o : Int) (b : List Int) (q : Int) :
    ktSetC w t (inter mem) o b q
      = ((List.range (elemCount w t)).mapM fun (k : Nat) => (rd b (q + k)).bind fun c => rd mem (o + c)).map inter := by
  unfold ktSetC
  rw [laneCount_two]
  apply mapM_pairs
  · intro k _
    rw [(par0 k).1, (par0 k).2.1]
    cases rd b (q + (k : Int)) with
    | none => rfl
    | some c => simpa using (rd_inter mem (o + c)).1
  · intro k _
    rw [(par0 k).2.2.1, (par0 k).2.2.2]
    cases rd b (q + (k : Int)) with
    | none => rfl
    | some c => simpa using (rd_inter mem (o + c)).2

section
variable [Zero T]

theorem maskz_pairs (w : Bsz) (t : LaneTy) (L : Nat) (mem : List (T × T)) (b : Int) :
    ktMaskzC w t L (inter mem) b
      = ((List.range (elemCount w t)).mapM fun (k : Nat) => if k < L then rd mem (b + k) else some (0, 0)).map inter := by
  unfold ktMaskzC
  rw [laneCount_two]
  apply mapM_pairs
  · intro k _
    rw [(par0 k).1, (par0 k).2.1]
    unfold ktPz
    by_cases h : k < L
    · rw [if_pos h, if_pos (by omega)]
      simpa using (rd_inter mem (b + k)).1
    · rw [if_neg h, if_neg (by omega)]; rfl
  · intro k _
    rw [(par0 k).2.2.1, (par0 k).2.2.2]
    unfold ktPz
    by_cases h : k < L
    · rw [if_pos h, if_pos (by omega)]
      simpa using (rd_inter mem (b + k)).2
    · rw [if_neg h, if_neg (by omega)]; rfl

theorem maskzInd_pairs (w : Bsz) (t : LaneTy) (L : Nat) (mem : List (T × T)) (o : Int) (b : List Int) (q : Int) :
    ktMaskzIndC w t L (inter mem) o b q
      = ((List.range (elemCount w t)).mapM fun (k : Nat) =>
          if k < L then (rd b (q + k)).bind fun c => rd mem (o + c) else some (0, 0)).map inter := by
  unfold ktMaskzIndC
  rw [laneCount_two]
  apply mapM_pairs
  · intro k _
    rw [(par0 k).1, (par0 k).2.1]
    by_cases h : k < L
    · rw [if_pos h, if_pos (by omega)]
      cases rd b (q + (k : Int)) with
      | none => rfl
      | some c => simpa using (rd_inter mem (o + c)).1
    · rw [if_neg h, if_neg (by omega)]; rfl
  · intro k _
    rw [(par0 k).2.2.1, (par0 k).2.2.2]
    by_cases h : k < L
    · rw [if_pos h, if_pos (by omega)]
      cases rd b (q + (k : Int)) with
      | none => rfl
      | some c => simpa using (rd_inter mem (o + c)).2
    · rw [if_neg h, if_neg (by omega)]; rfl

/-- the bits of the mask `2^L - 1` -/
theorem mask_bit (L i : Nat) : (2 ^ L - 1) / 2 ^ i % 2 = 1 ↔ i < L := by
  have h := Nat.testBit_two_pow_sub_one L i
  rw [Nat.testBit_eq_decide_div_mod_eq, decide_eq_decide] at h
  exact h

theorem maskz512_lanes (n m : Nat) (mem : List T) (p : Int) :
    mmMaskzLoadu n (2 ^ m - 1) mem p
      = (List.range n).mapM fun (i : Nat) => if i < m then rd mem (p + i) else some 0 := by
  unfold mmMaskzLoadu
  congr 1
  funext i
  simp only [mask_bit]

theorem maskz512_pairs (w : Bsz) (t : LaneTy) (L : Nat) (mem : List (T × T)) (b : Int) :
    ktMaskz512C w t L (inter mem) b
      = ((List.range (elemCount w t)).mapM fun (k : Nat) => if k < L then rd mem (b + k) else some (0, 0)).map inter := by
  unfold ktMaskz512C
  rw [maskz512_lanes, laneCount_two]
  apply mapM_pairs
  · intro k _
    by_cases h : k < L
    · rw [if_pos h, if_pos (by omega), show 2 * b + ((2 * k : Nat) : Int) = 2 * (b + k) by push_cast; ring,
        (rd_inter mem _).1]
    · rw [if_neg h, if_neg (by omega)]; rfl
  · intro k _
    by_cases h : k < L
    · rw [if_pos h, if_pos (by omega), show 2 * b + ((2 * k + 1 : Nat) : Int) = 2 * (b + k) + 1 by push_cast; ring,
        (rd_inter mem _).2]
    · rw [if_neg h, if_neg (by omega)]; rfl

theorem store_spec {v mem : List T} {p : Int} (h0 : 0 ≤ p) (h1 : p + v.length ≤ mem.length) :
    ∃ m, ktStoreu v mem p = some m ∧ m.length = mem.length ∧
      ∀ k, rd m k = if p ≤ k ∧ k < p + v.length then v[(k - p).toNat]? else rd mem k := by
  obtain ⟨m, e, hl, hm⟩ := forC_inv_nat (n := v.length) (s := mem)
    (f := fun i m => wr m (p + i) (lane v i.toNat))
    (fun n m => m.length = mem.length ∧ ∀ k, rd m k = if p ≤ k ∧ k < p + n then v[(k - p).toNat]? else rd mem k)
    ⟨rfl, fun k => by rw [if_neg (by omega)]⟩
    (by
      rintro n m hn ⟨hl, hm⟩
      obtain ⟨m', e⟩ : ∃ m', wr m (p + n) (lane v n) = some m' := ⟨_, wr_eq (by omega) (by omega)⟩
      refine ⟨m', by simpa using e, by rw [wr_length e, hl], fun k => ?_⟩
      rw [rd_wr e, hm]
      by_cases hk : k = p + n
      · subst hk
        rw [if_pos rfl, if_pos (by omega), show (p + (n : Int) - p).toNat = n by omega]
        simp [lane, hn]
      · rw [if_neg hk]
        by_cases c : p ≤ k ∧ k < p + n
        · rw [if_pos c, if_pos (by omega)]
        · rw [if_neg c, if_neg (by omega)])
  exact ⟨m, e, hl, hm⟩

theorem scatter_spec [Add T] [Sub T] (op : ScatterOp) {a mem : List T} {o : Int} {b : List Int} {q : Int}
    {ix : Nat → Int} {old : Nat → T} (hb : ∀ k : Nat, k < a.length → rd b (q + k) = some (ix k))
    (hm : ∀ k, k < a.length → rd mem (o + ix k) = some (old k))
    (hd : ∀ i j, i < a.length → j < a.length → ix i = ix j → i = j) :
    ∃ m, ktScatter op a mem o b q = some m ∧ m.length = mem.length ∧
      (∀ k, k < a.length → rd m (o + ix k) = some (op.put (old k) (lane a k))) ∧
      ∀ c, (∀ k, k < a.length → c ≠ o + ix k) → rd m c = rd mem c := by
  obtain ⟨m, e, h1, h2, h3⟩ := forC_inv_nat (n := a.length) (s := mem) (f := ktScatterStep op a o b q)
    (fun n m => m.length = mem.length ∧
      (∀ k, k < a.length → rd m (o + ix k) = some (if k < n then op.put (old k) (lane a k) else old k)) ∧
      ∀ c, (∀ k, k < a.length → c ≠ o + ix k) → rd m c = rd mem c)
    ⟨rfl, fun k hk => by rw [if_neg (by omega), hm k hk], fun _ _ => rfl⟩
    (by
      rintro n m hn ⟨h1, h2, h3⟩
      have hr := h2 n hn
      rw [if_neg (by omega)] at hr
      have hin := rd_some_iff.1 hr
      obtain ⟨m', e⟩ : ∃ m', wr m (o + ix n) (op.put (old n) (lane a n)) = some m' :=
        ⟨_, wr_eq hin.1 (by have := (List.getElem?_eq_some_iff.1 hin.2).1; omega)⟩
      refine ⟨m', ?_, by rw [wr_length e, h1], fun k hk => ?_, fun c hc => ?_⟩
      · unfold ktScatterStep
        simp only [Option.bind_eq_bind, hb n hn, Option.bind_some, hr, Int.toNat_natCast]
        exact e
      · rw [rd_wr e]
        by_cases hkn : k = n
        · subst hkn
          rw [if_pos rfl, if_pos (by omega)]
        · rw [if_neg (by intro h; exact hkn (hd k n hk hn (by omega))), h2 k hk]
          by_cases c : k < n
          · rw [if_pos c, if_pos (by omega)]
          · rw [if_neg c, if_neg (by omega)]
      · rw [rd_wr e, if_neg (hc n hn), h3 c hc])
  refine ⟨m, e, h1, fun k hk => ?_, h3⟩
  rw [h2 k hk, if_pos hk]

end
end Proofs
end Verif
