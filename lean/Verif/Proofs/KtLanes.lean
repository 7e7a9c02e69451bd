/-
Proofs about the vector primitives.
-/
import Verif.Model.KtLanes
import Verif.Spec.KtLanes
import Verif.Proofs.Adds
import Mathlib.Tactic.Ring
import Mathlib.Tactic.FieldSimp
import Mathlib.Algebra.QuadraticAlgebra.Basic

namespace Verif
namespace Proofs
open Model Spec

variable {T : Type}

theorem ktList1 {α : Type} {l : List α} (h : l.length = 1) : ∃ a, l = [a] := by
  match l, h with
  | [a], _ => exact ⟨a, rfl⟩

theorem ktList2 {α : Type} {l : List α} (h : l.length = 2) : ∃ a b, l = [a, b] := by
  match l, h with
  | [a, b], _ => exact ⟨a, b, rfl⟩

theorem ktList4 {α : Type} {l : List α} (h : l.length = 4) : ∃ a b c d, l = [a, b, c, d] := by
  match l, h with
  | [a, b, c, d], _ => exact ⟨a, b, c, d, rfl⟩

theorem ktList8 {α : Type} {l : List α} (h : l.length = 8) :
    ∃ a b c d e f g i, l = [a, b, c, d, e, f, g, i] := by
  match l, h with
  | [a, b, c, d, e, f, g, i], _ => exact ⟨a, b, c, d, e, f, g, i, rfl⟩

theorem ktList16 {α : Type} {l : List α} (h : l.length = 16) :
    ∃ a b c d e f g i a' b' c' d' e' f' g' i', l = [a, b, c, d, e, f, g, i, a', b', c', d', e', f', g', i'] := by
  match l, h with
  | [a, b, c, d, e, f, g, i, a', b', c', d', e', f', g', i'], _ =>
    exact ⟨a, b, c, d, e, f, g, i, a', b', c', d', e', f', g', i', rfl⟩

theorem mmOf1 (f : Nat → T) : mmOf 1 f = [f 0] := rfl
theorem mmOf2 (f : Nat → T) : mmOf 2 f = [f 0, f 1] := rfl
theorem mmOf4 (f : Nat → T) : mmOf 4 f = [f 0, f 1, f 2, f 3] := rfl
theorem mmOf8 (f : Nat → T) : mmOf 8 f = [f 0, f 1, f 2, f 3, f 4, f 5, f 6, f 7] := rfl
theorem mmOf16 (f : Nat → T) :
    mmOf 16 f = [f 0, f 1, f 2, f 3, f 4, f 5, f 6, f 7, f 8, f 9, f 10, f 11, f 12, f 13, f 14, f 15] := rfl

section
variable [Zero T] [Add T] [Sub T] [Mul T] [Div T] [Neg T]

/-- evaluate an operation on registers with given lanes -/
macro "kt_eval" : tactic => `(tactic|
  simp [ktMulC, ktMulSseD, ktMulSseF, ktMulAvxD, ktMulAvxF, ktConjC, ktPow2C, ktMul, ktHsum, ktHsum4, ktHsum8,
    ktHsumC, ktHsumC4, ktHsumC8, ktHsumC8d, ktHsumC16, mmMoveLow, mmMoveHigh, mmPermutePd, mmPermutePs,
    mmPermute4Pd, mmPermuteVar, mmShufflePd, mmShufflePs, mmShuffleImm, mmBlendPs, mmHaddPd, mmHaddPs, mmLower,
    mmUpper, mmAdd, mmSub, mmMul, mmFmadd, mmFmaddsub, mmAddsub, mmXorSign, mmOf1, mmOf2, mmOf4, mmOf8, mmOf16,
    lane, inter, laneCount, Bsz.blocks, LaneTy.per, cmulOps, cmulSseD, cmulSseF, cmulAvx, List.range_succ])

omit [Div T] [Neg T] in
theorem ktMulC_ops (F : LaneFpu T) (w : Bsz) (t : LaneTy) {u v : List (T × T)}
    (hu : u.length = elemCount w t) (hv : v.length = elemCount w t) :
    ktMulC F w t (inter u) (inter v) = inter (List.zipWith (cmulOps F w t) u v) := by
  cases w <;> cases t
  · obtain ⟨a, b, rfl⟩ := ktList2 hu
    obtain ⟨c, d, rfl⟩ := ktList2 hv
    kt_eval
  · obtain ⟨a, rfl⟩ := ktList1 hu
    obtain ⟨c, rfl⟩ := ktList1 hv
    kt_eval
  · obtain ⟨a, b, c, d, rfl⟩ := ktList4 hu
    obtain ⟨a', b', c', d', rfl⟩ := ktList4 hv
    kt_eval
  · obtain ⟨a, b, rfl⟩ := ktList2 hu
    obtain ⟨c, d, rfl⟩ := ktList2 hv
    kt_eval
  · obtain ⟨a, b, c, d, e, f, g, i, rfl⟩ := ktList8 hu
    obtain ⟨a', b', c', d', e', f', g', i', rfl⟩ := ktList8 hv
    kt_eval
  · obtain ⟨a, b, c, d, rfl⟩ := ktList4 hu
    obtain ⟨a', b', c', d', rfl⟩ := ktList4 hv
    kt_eval

omit [Add T] [Sub T] [Mul T] [Div T] in
theorem ktConjC_ops (w : Bsz) (t : LaneTy) {u : List (T × T)} (hu : u.length = elemCount w t) :
    ktConjC w t (inter u) = inter (u.map fun p => (p.1, -p.2)) := by
  cases w <;> cases t
  · obtain ⟨a, b, rfl⟩ := ktList2 hu; kt_eval
  · obtain ⟨a, rfl⟩ := ktList1 hu; kt_eval
  · obtain ⟨a, b, c, d, rfl⟩ := ktList4 hu; kt_eval
  · obtain ⟨a, b, rfl⟩ := ktList2 hu; kt_eval
  · obtain ⟨a, b, c, d, e, f, g, i, rfl⟩ := ktList8 hu; kt_eval
  · obtain ⟨a, b, c, d, rfl⟩ := ktList4 hu; kt_eval

omit [Sub T] [Div T] [Neg T] in
theorem ktPow2C_ops (w : Bsz) (t : LaneTy) {u : List (T × T)} (hu : u.length = elemCount w t) :
    ktPow2C w t (inter u)
      = inter (u.map fun p => (p.1 * p.1 + p.2 * p.2, p.2 * p.2 + p.1 * p.1)) := by
  cases w <;> cases t
  · obtain ⟨a, b, rfl⟩ := ktList2 hu; kt_eval
  · obtain ⟨a, rfl⟩ := ktList1 hu; kt_eval
  · obtain ⟨a, b, c, d, rfl⟩ := ktList4 hu; kt_eval
  · obtain ⟨a, b, rfl⟩ := ktList2 hu; kt_eval
  · obtain ⟨a, b, c, d, e, f, g, i, rfl⟩ := ktList8 hu; kt_eval
  · obtain ⟨a, b, c, d, rfl⟩ := ktList4 hu; kt_eval

omit [Zero T] [Add T] [Sub T] [Mul T] [Div T] [Neg T] in
theorem inter_len (z : List (T × T)) : (inter z).length = 2 * z.length := by
  induction z with
  | nil => rfl
  | cons a z ih =>
    show (a.1 :: a.2 :: inter z).length = _
    simp only [List.length_cons, ih]
    omega

omit [Zero T] [Add T] [Sub T] [Mul T] [Div T] [Neg T] in
theorem inter_zip (g : T → T → T) (u v : List (T × T)) :
    List.zipWith g (inter u) (inter v) = inter (List.zipWith (fun p q => (g p.1 q.1, g p.2 q.2)) u v) := by
  induction u generalizing v with
  | nil => rfl
  | cons a u ih =>
    cases v with
    | nil => simp [inter]
    | cons b v =>
      show List.zipWith g (a.1 :: a.2 :: inter u) (b.1 :: b.2 :: inter v) = g a.1 b.1 :: g a.2 b.2 :: inter _
      rw [← ih]
      rfl

omit [Zero T] [Add T] [Sub T] [Mul T] [Div T] [Neg T] in
theorem inter_cons (a : T × T) (z : List (T × T)) : inter (a :: z) = a.1 :: a.2 :: inter z := rfl

omit [Zero T] [Add T] [Sub T] [Mul T] [Div T] [Neg T] in
/-- every list of even length is a list of pairs -/
theorem inter_surj {n : Nat} {v : List T} (h : v.length = 2 * n) :
    ∃ z : List (T × T), z.length = n ∧ inter z = v := by
  induction n generalizing v with
  | zero => exact ⟨[], rfl, by simp at h; simp [inter, h]⟩
  | succ n ih =>
    match v, h with
    | a :: b :: v, h =>
      obtain ⟨z, h1, h2⟩ := ih (v := v) (by simp at h; omega)
      exact ⟨(a, b) :: z, by simp [h1], by rw [← h2]; rfl⟩

omit [Zero T] [Add T] [Sub T] [Mul T] [Div T] [Neg T] in
theorem mmOf_succ (n : Nat) (f : Nat → T) : mmOf (n + 1) f = f 0 :: mmOf n fun i => f (i + 1) := by
  simp [mmOf, List.range_succ_eq_map, Function.comp_def]

omit [Add T] [Sub T] [Mul T] [Div T] [Neg T] in
theorem mmFmadd_zip (F : LaneFpu T) {a b c : List T} (h1 : b.length = a.length) (h2 : c.length = a.length) :
    mmFmadd F a b c = List.zipWith (fun ab c => F.fma ab.1 ab.2 c) (a.zip b) c := by
  induction a generalizing b c with
  | nil => rfl
  | cons x a ih =>
    match b, h1, c, h2 with
    | y :: b, h1, z :: c, h2 =>
      simp only [List.length_cons, Nat.add_right_cancel_iff] at h1 h2
      show mmOf (a.length + 1) _ = F.fma x y z :: _
      rw [mmOf_succ]
      exact congrArg (F.fma x y z :: ·) (ih h1 h2)

omit [Zero T] [Add T] [Sub T] [Mul T] [Div T] [Neg T] in
theorem inter_zip_pair (u v : List (T × T)) :
    (inter u).zip (inter v) = inter (List.zipWith (fun p q => ((p.1, q.1), (p.2, q.2))) u v) := by
  induction u generalizing v with
  | nil => rfl
  | cons a u ih =>
    cases v with
    | nil => simp [inter]
    | cons b v =>
      show (a.1, b.1) :: (a.2, b.2) :: (inter u).zip (inter v) = (a.1, b.1) :: (a.2, b.2) :: inter _
      rw [← ih]

omit [Zero T] [Add T] [Sub T] [Mul T] [Div T] [Neg T] in
theorem inter_zip3 {A B : Type} (g : A → B → T) (u : List (A × A)) (v : List (B × B)) :
    List.zipWith g (inter u) (inter v) = inter (List.zipWith (fun p q => (g p.1 q.1, g p.2 q.2)) u v) := by
  induction u generalizing v with
  | nil => rfl
  | cons a u ih =>
    cases v with
    | nil => simp [inter]
    | cons b v =>
      show List.zipWith g (a.1 :: a.2 :: inter u) (b.1 :: b.2 :: inter v) = g a.1 b.1 :: g a.2 b.2 :: inter _
      rw [← ih]
      rfl

omit [Add T] [Sub T] [Mul T] [Div T] [Neg T] in
/-- the permutation that kt_fmadd_B applies to `b` swaps the parts of every element -/
theorem permute_swap (w : Bsz) (t : LaneTy) {v : List (T × T)} (hv : v.length = elemCount w t) :
    (t = .flt → mmPermutePs 0b10110001 (inter v) = inter (v.map Prod.swap)) ∧
    (t = .dbl → w ≠ .b512 → mmPermutePd 0b0101 (inter v) = inter (v.map Prod.swap)) ∧
    (t = .dbl → mmPermutePd 0b01010101 (inter v) = inter (v.map Prod.swap)) := by
  cases w <;> cases t
  · obtain ⟨a, b, rfl⟩ := ktList2 hv
    exact ⟨fun _ => by kt_eval, fun h => (by cases h), fun h => (by cases h)⟩
  · obtain ⟨a, rfl⟩ := ktList1 hv
    exact ⟨fun h => (by cases h), fun _ _ => by kt_eval, fun _ => by kt_eval⟩
  · obtain ⟨a, b, c, d, rfl⟩ := ktList4 hv
    exact ⟨fun _ => by kt_eval, fun h => (by cases h), fun h => (by cases h)⟩
  · obtain ⟨a, b, rfl⟩ := ktList2 hv
    exact ⟨fun h => (by cases h), fun _ _ => by kt_eval, fun _ => by kt_eval⟩
  · obtain ⟨a, b, c, d, e, f, g, i, rfl⟩ := ktList8 hv
    exact ⟨fun _ => by kt_eval, fun h => (by cases h), fun h => (by cases h)⟩
  · obtain ⟨a, b, c, d, rfl⟩ := ktList4 hv
    exact ⟨fun h => (by cases h), fun _ h => absurd rfl h, fun _ => by kt_eval⟩

theorem laneCount_two (w : Bsz) (t : LaneTy) : laneCount w t = 2 * elemCount w t := by
  cases w <;> cases t <;> rfl

theorem elem_pos (w : Bsz) (t : LaneTy) : 0 < elemCount w t := by
  cases w <;> cases t <;> decide

theorem lane_pos (w : Bsz) (t : LaneTy) : 0 < laneCount w t := by
  cases w <;> cases t <;> decide

end

/-! ### exact arithmetic -/

section
variable {S : Type}

theorem cmulOps_exact [CommRing S] {F : LaneFpu S} (hF : FmaExact F) (w : Bsz) (t : LaneTy) (p q : S × S) :
    cmulOps F w t p q = (p.1 * q.1 - p.2 * q.2, p.1 * q.2 + p.2 * q.1) := by
  cases w <;> cases t <;> simp [cmulOps, cmulSseD, cmulSseF, cmulAvx, (hF _ _ _).1, (hF _ _ _).2, add_comm]

theorem ktHsum_exact [CommRing S] {red : List S → S} (w : Bsz) (t : LaneTy)
    (hr : w = .b512 → ∀ v : List S, v.length = laneCount w t → red v = v.sum)
    {v : List S} (hv : v.length = laneCount w t) : ktHsum red w t v = v.sum := by
  cases w <;> cases t
  · obtain ⟨a, b, c, d, rfl⟩ := ktList4 hv
    simp [ktHsum, lane]; ring
  · obtain ⟨a, b, rfl⟩ := ktList2 hv
    simp [ktHsum, lane]
  · obtain ⟨a, b, c, d, e, f, g, i, rfl⟩ := ktList8 hv
    have : ktHsum red .b256 .flt [a, b, c, d, e, f, g, i]
        = ((a + b) + (c + d)) + ((e + f) + (g + i)) := by kt_eval
    rw [this]; simp; ring
  · obtain ⟨a, b, c, d, rfl⟩ := ktList4 hv
    have : ktHsum red .b256 .dbl [a, b, c, d] = (a + b) + (c + d) := by kt_eval
    rw [this]; simp; ring
  · exact hr rfl v hv
  · exact hr rfl v hv

theorem ktHsumC_exact [CommRing S] (w : Bsz) (t : LaneTy) {u : List (S × S)} (hu : u.length = elemCount w t) :
    ktHsumC w t (inter u) = ((u.map (·.1)).sum, (u.map (·.2)).sum) := by
  cases w <;> cases t
  · obtain ⟨a, b, rfl⟩ := ktList2 hu
    have : ktHsumC .b128 .flt (inter [a, b]) = (a.1 + b.1, a.2 + b.2) := by kt_eval
    rw [this]; simp
  · obtain ⟨a, rfl⟩ := ktList1 hu
    have : ktHsumC .b128 .dbl (inter [a]) = (a.1, a.2) := by kt_eval
    rw [this]; simp
  · obtain ⟨a, b, c, d, rfl⟩ := ktList4 hu
    have : ktHsumC .b256 .flt (inter [a, b, c, d])
        = ((a.1 + b.1) + (c.1 + d.1), (a.2 + b.2) + (c.2 + d.2)) := by kt_eval
    rw [this]; simp; constructor <;> ring
  · obtain ⟨a, b, rfl⟩ := ktList2 hu
    have : ktHsumC .b256 .dbl (inter [a, b]) = (a.1 + b.1, a.2 + b.2) := by kt_eval
    rw [this]; simp
  · obtain ⟨a, b, c, d, e, f, g, i, rfl⟩ := ktList8 hu
    have : ktHsumC .b512 .flt (inter [a, b, c, d, e, f, g, i])
        = (((a.1 + b.1) + (c.1 + d.1)) + ((e.1 + f.1) + (g.1 + i.1)),
           ((a.2 + b.2) + (c.2 + d.2)) + ((e.2 + f.2) + (g.2 + i.2))) := by kt_eval
    rw [this]; simp; constructor <;> ring
  · obtain ⟨a, b, c, d, rfl⟩ := ktList4 hu
    have : ktHsumC .b512 .dbl (inter [a, b, c, d])
        = ((a.1 + b.1) + (c.1 + d.1), (a.2 + b.2) + (c.2 + d.2)) := by kt_eval
    rw [this]; simp; constructor <;> ring

/-! registers of complex numbers -/

variable [CommRing S]

theorem pack_inter (z : List (Cx S)) : ktPack z = inter (reIm z) := by
  induction z with
  | nil => rfl
  | cons a z ih =>
    show a.re :: a.im :: ktPack z = a.re :: a.im :: inter (reIm z)
    rw [ih]

theorem reIm_len (z : List (Cx S)) : (reIm z).length = z.length := by simp [reIm]

theorem reIm_zip (g : S × S → S × S → S × S) (f : Cx S → Cx S → Cx S)
    (h : ∀ x y : Cx S, g (x.re, x.im) (y.re, y.im) = ((f x y).re, (f x y).im)) (u v : List (Cx S)) :
    List.zipWith g (reIm u) (reIm v) = reIm (List.zipWith f u v) := by
  simp only [reIm, List.zipWith_map, List.map_zipWith]
  congr 1
  funext x y
  exact h x y

theorem ktMulC_exact {F : LaneFpu S} (hF : FmaExact F) (w : Bsz) (t : LaneTy) {u v : List (Cx S)}
    (hu : u.length = elemCount w t) (hv : v.length = elemCount w t) :
    ktMulC F w t (ktPack u) (ktPack v) = ktPack (List.zipWith (· * ·) u v) := by
  rw [pack_inter, pack_inter, pack_inter, ktMulC_ops F w t (by rw [reIm_len, hu]) (by rw [reIm_len, hv])]
  congr 1
  apply reIm_zip
  intro x y
  rw [cmulOps_exact hF]
  ext <;> simp
  ring

theorem pack_zip (g : S → S → S) (f : Cx S → Cx S → Cx S)
    (h : ∀ x y : Cx S, (g x.re y.re, g x.im y.im) = ((f x y).re, (f x y).im)) (u v : List (Cx S)) :
    List.zipWith g (ktPack u) (ktPack v) = ktPack (List.zipWith f u v) := by
  rw [pack_inter, pack_inter, pack_inter, inter_zip]
  congr 1
  exact reIm_zip _ _ h u v

theorem ktHsumC_pack (w : Bsz) (t : LaneTy) {u : List (Cx S)} (hu : u.length = elemCount w t) :
    ktHsumC w t (ktPack u) = (u.sum.re, u.sum.im) := by
  rw [pack_inter, ktHsumC_exact w t (by rw [reIm_len, hu])]
  have : ∀ u : List (Cx S), (((reIm u).map (·.1)).sum, ((reIm u).map (·.2)).sum) = (u.sum.re, u.sum.im) := by
    intro u
    induction u with
    | nil => simp [reIm]
    | cons a u ih =>
      simp only [Prod.mk.injEq, reIm, List.map_cons, List.sum_cons] at ih ⊢
      rw [ih.1, ih.2]
      simp
  exact this u

theorem pack_len (z : List (Cx S)) : (ktPack z).length = 2 * z.length := by
  rw [pack_inter, inter_len, reIm_len]

theorem pack_surj {n : Nat} {v : List S} (h : v.length = 2 * n) : ∃ z : List (Cx S), z.length = n ∧ ktPack z = v := by
  obtain ⟨z, h1, h2⟩ := inter_surj h
  refine ⟨z.map fun p => ⟨p.1, p.2⟩, by simp [h1], ?_⟩
  rw [pack_inter, ← h2]
  simp [reIm, Function.comp_def]

theorem pack_zero (w : Bsz) (t : LaneTy) : ktSetzero w t = ktPack (List.replicate (elemCount w t) (0 : Cx S)) := by
  rw [ktSetzero, laneCount_two]
  generalize elemCount w t = n
  induction n with
  | zero => rfl
  | succ n ih =>
    rw [show 2 * (n + 1) = 2 * n + 1 + 1 by ring, List.replicate_succ, List.replicate_succ, ih]
    rfl

theorem zip_add_sum {R : Type} [CommRing R] : ∀ (u v : List R), u.length = v.length →
    (List.zipWith (· + ·) u v).sum = u.sum + v.sum
  | [], [], _ => by simp
  | a :: u, b :: v, h => by
    simp only [List.zipWith_cons_cons, List.sum_cons, zip_add_sum u v (by simpa using h)]
    ring

theorem zip_maps {A R : Type} (g : R → R → R) (L : List (A × A)) (f : A → R) :
    List.zipWith g (L.map fun x => f x.1) (L.map fun x => f x.2) = L.map fun x => g (f x.1) (f x.2) := by
  induction L with
  | nil => rfl
  | cons a L ih => simp [ih]

/-! ### accumulators -/

theorem vecKt_ok [DecidableEq S] {F : LaneFpu S} (hF : FmaExact F) {red : List S → S} (w : Bsz) (t : LaneTy)
    (hr : w = .b512 → Sums red (laneCount w t)) : (vecKt F red w t).Ok (laneCount w t) := by
  refine ⟨lane_pos w t, fun s => s.length = laneCount w t, ?_, ?_, ?_⟩
  · show (ktSetzero w t).length = _
    simp [ktSetzero]
  · show ktHsum red w t (ktSetzero w t) = 0
    rw [ktHsum_exact w t hr (by simp [ktSetzero])]
    simp [ktSetzero]
  · intro L (s : List S) hL (hs : s.length = _)
    have e : ktFmadd F (L.map (·.1)) (L.map (·.2)) s
        = List.zipWith (· + ·) (L.map fun ab => ab.1 * ab.2) s := by
      unfold ktFmadd
      rw [mmFmadd_zip F (by simp) (by simp [hL, hs]), List.zip_map', List.zipWith_map_left, List.zipWith_map_left]
      congr 1
      funext x y
      exact (hF _ _ _).1
    refine ⟨?_, ?_⟩
    · show (ktFmadd F (L.map (·.1)) (L.map (·.2)) s).length = _
      rw [e]; simp [hL, hs]
    · show ktHsum red w t (ktFmadd F (L.map (·.1)) (L.map (·.2)) s) = ktHsum red w t s + _
      rw [e, ktHsum_exact w t hr hs, ktHsum_exact w t hr (by simp [hL, hs]), zip_add_sum _ _ (by simp [hL, hs])]
      ring

theorem vecKtC_ok [DecidableEq S] {F : LaneFpu S} (hF : FmaExact F) (w : Bsz) (t : LaneTy) :
    (vecKtC F w t).Ok (elemCount w t) := by
  refine ⟨elem_pos w t, fun s => ∃ z : List (Cx S), z.length = elemCount w t ∧ s = ktPack z, ?_, ?_, ?_⟩
  · exact ⟨_, List.length_replicate, pack_zero w t⟩
  · show (⟨(ktHsumC w t (ktSetzero w t)).1, (ktHsumC w t (ktSetzero w t)).2⟩ : Cx S) = 0
    rw [pack_zero, ktHsumC_pack w t List.length_replicate]
    simp
    rfl
  · rintro L _ hL ⟨z, hz, rfl⟩
    have e : ktFmaddC F w t (ktPack (L.map (·.1))) (ktPack (L.map (·.2))) (ktPack z)
        = ktPack (List.zipWith (· + ·) (L.map fun ab => ab.1 * ab.2) z) := by
      unfold ktFmaddC ktAdd mmAdd
      rw [ktMulC_exact hF w t (by simp [hL]) (by simp [hL]), zip_maps (· * ·) L (fun x => x)]
      exact pack_zip _ _ (fun _ _ => by simp) _ _
    have hl : (List.zipWith (· + ·) (L.map fun ab => ab.1 * ab.2) z).length = elemCount w t := by
      simp [hL, hz]
    refine ⟨⟨_, hl, e⟩, ?_⟩
    show (⟨(ktHsumC w t (ktFmaddC F w t (ktPack (L.map (·.1))) (ktPack (L.map (·.2))) (ktPack z))).1,
      (ktHsumC w t (ktFmaddC F w t (ktPack (L.map (·.1))) (ktPack (L.map (·.2))) (ktPack z))).2⟩ : Cx S)
        = ⟨(ktHsumC w t (ktPack z)).1, (ktHsumC w t (ktPack z)).2⟩ + _
    rw [e, ktHsumC_pack w t hl, ktHsumC_pack w t hz, zip_add_sum _ _ (by simp [hL, hz])]
    rw [add_comm]

/-- the two accumulators of kt_fmadd_B, as lists of pairs -/
theorem fmaddB_pairs {F : LaneFpu S} (hF : FmaExact F) {w : Bsz} (hw : w ≠ .b128) (t : LaneTy)
    {L : List (Cx S × Cx S)} {c d : List (S × S)} (hL : L.length = elemCount w t) (hc : c.length = elemCount w t)
    (hd : d.length = elemCount w t) :
    ktFmaddB F w t (ktPack (L.map (·.1))) (ktPack (L.map (·.2))) (inter c, inter d)
      = (inter ((vecCplx (elemCount w t)).fma L (c, d)).1, inter ((vecCplx (elemCount w t)).fma L (c, d)).2) := by
  have hs := permute_swap w t (v := reIm (L.map (·.2))) (by rw [reIm_len]; simp [hL])
  have h1 : mmFmadd F (inter (reIm (L.map (·.1)))) (inter (reIm (L.map (·.2)))) (inter c)
      = inter ((vecCplx (elemCount w t)).fma L (c, d)).1 := by
    rw [mmFmadd_zip F (by simp [inter_len, reIm_len]) (by simp [inter_len, reIm_len, hL, hc]), inter_zip_pair,
      inter_zip3]
    congr 1
    simp only [vecCplx, reIm, List.map_map, List.zipWith_map, List.zipWith_self]
    rw [List.zipWith_map_left]
    congr 1
    funext x y
    simp [(hF _ _ _).1]
  have h2 : mmFmadd F (inter (reIm (L.map (·.1)))) (inter ((reIm (L.map (·.2))).map Prod.swap)) (inter d)
      = inter ((vecCplx (elemCount w t)).fma L (c, d)).2 := by
    rw [mmFmadd_zip F (by simp [inter_len, reIm_len]) (by simp [inter_len, reIm_len, hL, hd]), inter_zip_pair,
      inter_zip3]
    congr 1
    simp only [vecCplx, reIm, List.map_map, List.zipWith_map, List.zipWith_self]
    rw [List.zipWith_map_left]
    congr 1
    funext x y
    simp [(hF _ _ _).1]
  rw [pack_inter, pack_inter]
  cases w
  · exact absurd rfl hw
  all_goals
    cases t
    · show (mmFmadd F _ _ _, mmFmadd F _ _ _) = _
      rw [hs.1 rfl, h1, h2]
    · show (mmFmadd F _ _ _, mmFmadd F _ _ _) = _
      first
      | rw [hs.2.1 rfl (by simp), h1, h2]
      | rw [hs.2.2 rfl, h1, h2]

theorem sum_inter (z : List (S × S)) : (inter z).sum = (z.map fun p => p.1 + p.2).sum := by
  induction z with
  | nil => rfl
  | cons a z ih =>
    show (a.1 :: a.2 :: inter z).sum = _
    simp only [List.sum_cons, List.map_cons, ih]
    ring

theorem hsumB_pairs {red : List S → S} {w : Bsz} (hw : w ≠ .b128) (t : LaneTy)
    (hr : w = .b512 → Sums red (laneCount w t)) {c d : List (S × S)} (hc : c.length = elemCount w t)
    (hd : d.length = elemCount w t) :
    (⟨(ktHsumB red w t (inter c, inter d)).1, (ktHsumB red w t (inter c, inter d)).2⟩ : Cx S)
      = (vecCplx (elemCount w t)).hsum (c, d) := by
  have h1 : (ktHsum red w t (ktConjC w t (inter c)), ktHsum red w t (inter d))
      = ((c.map fun c => c.1 + -c.2).sum, (d.map fun d => d.1 + d.2).sum) := by
    rw [ktConjC_ops w t hc, ktHsum_exact w t hr (by rw [inter_len, laneCount_two]; simp [hc]),
      ktHsum_exact w t hr (by rw [inter_len, laneCount_two]; simp [hd]), sum_inter, sum_inter]
    simp [Function.comp_def]
  have h2 : ktHsumB red w t (inter c, inter d) = (ktHsum red w t (ktConjC w t (inter c)), ktHsum red w t (inter d)) := by
    cases w
    · exact absurd rfl hw
    · rfl
    · cases t <;> rfl
  rw [h2, h1]
  rfl

theorem vecKtB_ok [DecidableEq S] {F : LaneFpu S} (hF : FmaExact F) {red : List S → S} (w : Bsz) (t : LaneTy)
    (hr : w = .b512 → Sums red (laneCount w t)) : (vecKtB F red w t).Ok (elemCount w t) := by
  by_cases hw : w = .b128
  · subst hw
    obtain ⟨h0, I, h1, h2, h3⟩ := vecKtC_ok hF .b128 t
    exact ⟨h0, fun s => I s.1, h1, h2, fun L s hL hs => h3 L s.1 hL hs⟩
  obtain ⟨h0, I, h1, h2, h3⟩ := vecCplx_ok (S := S) (elem_pos w t)
  have hz : ktSetzero w t = inter (List.replicate (elemCount w t) ((0 : S), (0 : S))) := by
    rw [pack_zero, pack_inter]
    simp [reIm]
  refine ⟨h0, fun s => ∃ c d : List (S × S), c.length = elemCount w t ∧ d.length = elemCount w t ∧ I (c, d) ∧
    s = (inter c, inter d), ?_, ?_, ?_⟩
  · exact ⟨_, _, List.length_replicate, List.length_replicate, h1, by rw [← hz]; rfl⟩
  · show (⟨(ktHsumB red w t (ktSetzero w t, ktSetzero w t)).1,
      (ktHsumB red w t (ktSetzero w t, ktSetzero w t)).2⟩ : Cx S) = 0
    rw [hz, hsumB_pairs hw t hr List.length_replicate List.length_replicate]
    exact h2
  · rintro L _ hL ⟨c, d, hc, hd, hI, rfl⟩
    have e := fmaddB_pairs hF hw t hL hc hd
    have hl1 : ((vecCplx (elemCount w t)).fma L (c, d)).1.length = elemCount w t := by
      simp [vecCplx, hL, hc]
    have hl2 : ((vecCplx (elemCount w t)).fma L (c, d)).2.length = elemCount w t := by
      simp [vecCplx, hL, hd]
    obtain ⟨k1, k2⟩ := h3 L (c, d) hL hI
    refine ⟨⟨_, _, hl1, hl2, k1, e⟩, ?_⟩
    show (⟨(ktHsumB red w t (ktFmaddB F w t (ktPack (L.map (·.1))) (ktPack (L.map (·.2))) (inter c, inter d))).1,
      (ktHsumB red w t (ktFmaddB F w t (ktPack (L.map (·.1))) (ktPack (L.map (·.2))) (inter c, inter d))).2⟩ : Cx S)
        = ⟨(ktHsumB red w t (inter c, inter d)).1, (ktHsumB red w t (inter c, inter d)).2⟩ + _
    rw [e, hsumB_pairs hw t hr hl1 hl2, hsumB_pairs hw t hr hc hd]
    exact k2

end
end Proofs
end Verif
