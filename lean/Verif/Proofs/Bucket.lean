/-
Counting-sort lemmas behind csr2csc and coo2csr.
-/
import Verif.Core.Rep
import Verif.Core.Lists
import Verif.Model.Csc
import Verif.Spec.Sparse

namespace Verif
open Model

variable {R : Type}

/-- number of keys equal to `k` -/
def cntK (ks : List Int) (k : Nat) : Nat := ks.countP (fun c => c = (k : Int))
/-- number of keys smaller than `k` -/
def startK (ks : List Int) (k : Nat) : Nat := ks.countP (fun c => c < (k : Int))

theorem startK_succ (ks : List Int) (k : Nat) : startK ks (k + 1) = startK ks k + cntK ks k := by
  unfold startK cntK
  induction ks with
  | nil => rfl
  | cons c ks ih =>
    simp only [List.countP_cons, ih, decide_eq_true_eq]
    by_cases h1 : c < (k : Int)
    · rw [if_pos h1, if_pos (by omega), if_neg (by omega)]; omega
    · by_cases h3 : c = (k : Int)
      · rw [if_neg h1, if_pos (by omega), if_pos h3]; omega
      · rw [if_neg h1, if_neg (by omega), if_neg h3]; omega

theorem startK_zero (ks : List Int) (h : ∀ c ∈ ks, 0 ≤ c) : startK ks 0 = 0 := by
  unfold startK
  rw [List.countP_eq_zero]
  intro c hc
  have := h c hc
  simp; omega

theorem startK_full (ks : List Int) (n : Nat) (h : ∀ c ∈ ks, c < (n : Int)) :
    startK ks n = ks.length := by
  unfold startK
  rw [List.countP_eq_length]
  intro c hc
  simpa using h c hc

theorem startK_mono (ks : List Int) {a b : Nat} (h : a ≤ b) : startK ks a ≤ startK ks b := by
  induction h with
  | refl => exact Nat.le_refl _
  | step _ ih => rw [startK_succ]; omega

theorem cntK_append (a b : List Int) (k : Nat) : cntK (a ++ b) k = cntK a k + cntK b k := by
  simp [cntK]

theorem cntK_le_of_prefix {a b : List Int} (k : Nat) : cntK a k ≤ cntK (a ++ b) k := by
  simp [cntK]

theorem zeroPtr_spec {cp : List Int} {n : Nat} (h : cp.length = n + 1) :
    ∃ b, zeroPtr n cp = some b ∧ Rep b (n + 1) (fun _ => 0) := by
  have hr := Rep.of_list cp 0
  rw [h] at hr
  have := fill_rep (g := fun _ => (0 : Int)) hr (n := n + 1) (le_refl _) (fun i cp => wr cp i 0)
    (fun i a _ => rfl)
  obtain ⟨b, e, r⟩ := this
  refine ⟨b, ?_, r.congr (fun k hk => by simp [hk])⟩
  simpa [zeroPtr] using e

theorem countKeys_spec {cp key : List Int} {n : Nat} {base : Int}
    (h : Rep cp (n + 1) (fun _ => 0))
    (hk : ∀ c ∈ key, base ≤ c ∧ c < base + n) :
    ∃ b, countKeys key.length base key cp = some b ∧
      Rep b (n + 1) (fun k => if k = 0 then 0 else (cntK (key.map (· - base)) (k - 1) : Int)) := by
  unfold countKeys
  rw [forC_list (ind := key) (fun c cp => do
      let x ← rd cp (c - base + 1)
      wr cp (c - base + 1) (x + 1)) (by omega) (by omega)]
  have e0 : (List.take ((key.length : Int) - 0).toNat (List.drop (0 : Int).toNat key)) = key := by
    simp
  rw [e0]
  refine foldlM_inv (P := fun pre b => Rep b (n + 1)
    (fun k => if k = 0 then 0 else (cntK (pre.map (· - base)) (k - 1) : Int))) ?_ ?_
  · exact h.congr (fun k _ => by simp [cntK])
  · intro pre c suf s hl hs
    have hc := hk c (by rw [hl]; simp)
    rw [hs.rd (by omega) (by omega)]
    simp only [Option.bind_eq_bind, Option.bind_some]
    obtain ⟨b, e, r⟩ := hs.wr (i := c - base + 1)
      ((if (c - base + 1).toNat = 0 then 0
        else (cntK (pre.map (· - base)) ((c - base + 1).toNat - 1) : Int)) + 1)
      (by omega) (by omega)
    refine ⟨b, e, r.congr ?_⟩
    intro k hk'
    by_cases e1 : k = (c - base + 1).toNat
    · subst e1
      have h1 : (c - base + 1).toNat ≠ 0 := by omega
      have h2 : c - base = (((c - base + 1).toNat - 1 : Nat) : Int) := by omega
      simp only [Function.update_self, h1, if_false, List.map_append, List.map_cons, List.map_nil,
        cntK_append]
      have : cntK [c - base] ((c - base + 1).toNat - 1) = 1 := by
        unfold cntK; simp; omega
      rw [this]; omega
    · rw [Function.update_of_ne e1]
      by_cases hk0 : k = 0
      · simp [hk0]
      · simp only [hk0, if_false, List.map_append, List.map_cons, List.map_nil, cntK_append]
        have : cntK [c - base] (k - 1) = 0 := by
          unfold cntK; simp; omega
        rw [this]; simp

theorem scanPtr_spec {cp ks : List Int} {n : Nat}
    (h : Rep cp (n + 1) (fun k => if k = 0 then 0 else (cntK ks (k - 1) : Int)))
    (h0 : ∀ c ∈ ks, 0 ≤ c) :
    ∃ b, scanPtr n cp = some b ∧ Rep b (n + 1) (fun k => (startK ks k : Int)) := by
  unfold scanPtr
  have := forC_inv_nat (n := n) (s := cp) (f := fun i cp => do
    let b ← rd cp (i + 1)
    let a ← rd cp i
    wr cp (i + 1) (b + a))
    (P := fun i b => Rep b (n + 1)
      (fun k => if k ≤ i then (startK ks k : Int) else (cntK ks (k - 1) : Int))) ?_ ?_
  · obtain ⟨b, e, r⟩ := this
    exact ⟨b, e, r.congr (fun k hk => by simp [show k ≤ n by omega])⟩
  · refine h.congr (fun k _ => ?_)
    by_cases hk : k = 0
    · simp [hk, startK_zero ks h0]
    · simp [hk]
  · intro i s hi hs
    rw [show ((i : Int) + 1) = ((i + 1 : Nat) : Int) by omega, hs.rd_nat (by omega),
      hs.rd_nat (by omega)]
    simp only [Option.bind_eq_bind, Option.bind_some]
    obtain ⟨b, e, r⟩ := hs.wr_nat (i := i + 1)
      ((if i + 1 ≤ i then (startK ks (i+1) : Int) else (cntK ks (i + 1 - 1) : Int)) +
       (if i ≤ i then (startK ks i : Int) else (cntK ks (i - 1) : Int))) (by omega)
    refine ⟨b, e, r.congr ?_⟩
    intro k _
    by_cases e1 : k = i + 1
    · subst e1
      simp [startK_succ]; omega
    · rw [Function.update_of_ne e1]
      by_cases hk : k ≤ i
      · simp [hk, show k ≤ i + 1 by omega]
      · simp [hk, show ¬ k ≤ i + 1 by omega]

/-- Filter of the items with a given key. -/
def bucket (items : List (Int × Int × R)) (k : Nat) : List (Int × R) :=
  (items.filter (fun e => e.1 = (k : Int))).map (·.2)

theorem bucket_length (items : List (Int × Int × R)) (k : Nat) :
    (bucket items k).length = cntK (items.map (·.1)) k := by
  rw [cntK, List.countP_map, List.countP_eq_length_filter, bucket, List.length_map]
  rfl

theorem bucket_append (a b : List (Int × Int × R)) (k : Nat) :
    bucket (a ++ b) k = bucket a k ++ bucket b k := by simp [bucket]

theorem place_spec {n : Nat} {items : List (Int × Int × R)} {cp ri : List Int} {cv : List R}
    (hk : ∀ e ∈ items, 0 ≤ e.1 ∧ e.1 < (n : Int))
    (hcp : Rep cp (n + 1) (fun k => (startK (items.map (·.1)) k : Int)))
    (hri : ri.length = items.length) (hcv : cv.length = items.length) :
    ∃ s', items.foldlM (fun s e => placeOne e.1 e.2.1 e.2.2 s) (cp, ri, cv) = some s' ∧
      Rep s'.1 (n + 1) (fun k => if k < n then (startK (items.map (·.1)) (k + 1) : Int)
        else (startK (items.map (·.1)) k : Int)) ∧
      s'.2.1.length = items.length ∧ s'.2.2.length = items.length ∧
      ∀ k, k < n → ∀ t (ht : t < (bucket items k).length),
        s'.2.1[startK (items.map (·.1)) k + t]? = some (bucket items k)[t].1 ∧
        s'.2.2[startK (items.map (·.1)) k + t]? = some (bucket items k)[t].2 := by
  set ks := items.map (·.1) with hks
  have key := foldlM_inv (f := fun s (e : Int × Int × R) => placeOne e.1 e.2.1 e.2.2 s)
    (l := items) (s := (cp, ri, cv))
    (P := fun pre s' =>
      Rep s'.1 (n + 1) (fun k => if k < n then ((startK ks k + cntK (pre.map (·.1)) k : Nat) : Int)
        else (startK ks k : Int)) ∧
      s'.2.1.length = items.length ∧ s'.2.2.length = items.length ∧
      ∀ k, k < n → ∀ t (ht : t < (bucket pre k).length),
        s'.2.1[startK ks k + t]? = some (bucket pre k)[t].1 ∧
        s'.2.2[startK ks k + t]? = some (bucket pre k)[t].2) ?_ ?_
  · obtain ⟨s', e, r, l1, l2, b⟩ := key
    refine ⟨s', e, r.congr ?_, l1, l2, b⟩
    intro k _
    by_cases hk' : k < n
    · simp only [hk', if_true]; rw [startK_succ]
    · simp [hk']
  · refine ⟨hcp.congr (fun k _ => by simp [cntK]), hri, hcv, ?_⟩
    intro k _ t ht
    simp [bucket] at ht
  · intro pre e suf s hl ⟨hr, l1, l2, hb⟩
    obtain ⟨cp, ri, cv⟩ := s
    simp only at hr l1 l2 hb
    have hke := hk e (by rw [hl]; simp)
    obtain ⟨q, hq⟩ : ∃ q : Nat, e.1 = (q : Int) := ⟨e.1.toNat, by omega⟩
    have hqn : q < n := by omega
    -- capacity
    have hks' : ks = pre.map (·.1) ++ e.1 :: suf.map (·.1) := by rw [hks, hl]; simp
    have hcap : cntK (pre.map (·.1)) q < cntK ks q := by
      rw [hks', cntK_append]
      have : 0 < cntK (e.1 :: suf.map (·.1)) q := by
        unfold cntK; rw [List.countP_cons]; simp [hq]
      omega
    have hcapall : ∀ k, cntK (pre.map (·.1)) k ≤ cntK ks k := fun k => by
      rw [hks']; exact cntK_le_of_prefix k
    have hslot : startK ks q + cntK (pre.map (·.1)) q < items.length := by
      have h1 : startK ks q + cntK ks q = startK ks (q + 1) := (startK_succ ks q).symm
      have h2 : startK ks (q + 1) ≤ startK ks n := startK_mono ks (by omega)
      have h3 : startK ks n = ks.length := startK_full ks n (by
        intro c hc; rw [hks] at hc
        obtain ⟨e', he', rfl⟩ := List.mem_map.1 hc
        exact (hk e' he').2)
      have h4 : ks.length = items.length := by simp [hks]
      omega
    set slot := startK ks q + cntK (pre.map (·.1)) q with hslotdef
    have hrd : rd cp e.1 = some (slot : Int) := by
      rw [hq, hr.rd_nat (by omega)]; simp [hqn, hslotdef]
    obtain ⟨cp', hcp', hr'⟩ := hr.wr_nat (i := q) ((slot : Int) + 1) (by omega)
    refine ⟨(cp', ri.set slot e.2.1, cv.set slot e.2.2), ?_, ?_, ?_, ?_, ?_⟩
    · unfold placeOne
      simp only [hrd, Option.bind_eq_bind, Option.bind_some,
        wr_ofNat (a := ri) (v := e.2.1) (show slot < ri.length by omega),
        wr_ofNat (a := cv) (v := e.2.2) (show slot < cv.length by omega)]
      rw [hq, hcp']; rfl
    · refine hr'.congr ?_
      intro k _
      by_cases e1 : k = q
      · subst e1
        have : cntK [e.1] k = 1 := by unfold cntK; simp [hq]
        simp only [Function.update_self, hqn, if_true, List.map_append, List.map_cons,
          List.map_nil, cntK_append, this]
        omega
      · rw [Function.update_of_ne e1]
        by_cases hk' : k < n
        · have : cntK [e.1] k = 0 := by unfold cntK; simp [hq]; omega
          simp [hk', cntK_append, this]
        · simp [hk']
    · simp [l1]
    · simp [l2]
    · intro k hkn t ht
      have hbl : (bucket pre k).length = cntK (pre.map (·.1)) k := bucket_length pre k
      by_cases e1 : k = q
      · subst e1
        have hbe : bucket (pre ++ [e]) k = bucket pre k ++ [e.2] := by
          rw [bucket_append]; simp [bucket, hq]
        simp only [hbe]
        simp only [hbe, List.length_append, List.length_singleton] at ht
        by_cases ht' : t < (bucket pre k).length
        · have := hb k hkn t ht'
          rw [List.getElem?_set_ne (by omega), List.getElem?_set_ne (by omega)]
          rw [List.getElem_append_left ht']
          exact this
        · have ht2 : t = (bucket pre k).length := by omega
          have hs : startK ks k + t = slot := by omega
          rw [hs, List.getElem?_set_self (by omega), List.getElem?_set_self (by omega)]
          subst ht2
          simp
      · have hbe : bucket (pre ++ [e]) k = bucket pre k := by
          rw [bucket_append]
          have : ¬ ((q : Int) = (k : Int)) := by omega
          simp [bucket, hq, this]
        simp only [hbe] at ht ⊢
        have hne : slot ≠ startK ks k + t := by
          have a1 : startK ks k + t < startK ks (k + 1) := by
            have := hcapall k
            rw [startK_succ]; omega
          have a2 : slot < startK ks (q + 1) := by
            rw [startK_succ]; omega
          rcases Nat.lt_or_gt_of_ne e1 with h | h
          · have := startK_mono ks (show k + 1 ≤ q by omega); omega
          · have := startK_mono ks (show q + 1 ≤ k by omega); omega
        rw [List.getElem?_set_ne hne, List.getElem?_set_ne hne]
        exact hb k hkn t ht

theorem shiftPtr_spec {cp : List Int} {n : Nat} {base : Int} {st : Nat → Nat} (h00 : st 0 = 0)
    (h : Rep cp (n + 1) (fun k => if k < n then (st (k + 1) : Int) else (st k : Int))) :
    ∃ b, shiftPtr n base cp = some b ∧ Rep b (n + 1) (fun k => (st k : Int) + base) := by
  unfold shiftPtr
  have := forD_inv (lo := 1) (hi := (n : Int)) (s := cp) (f := fun i cp => do
    let x ← rd cp (i - 1)
    wr cp i (x + base))
    (P := fun i b => Rep b (n + 1) (fun k => if (k : Int) < i then
        (if k < n then (st (k + 1) : Int) else (st k : Int)) else (st k : Int) + base))
    (by omega) ?_ ?_
  · obtain ⟨b, e, r⟩ := this
    obtain ⟨b', e', r'⟩ := r.wr_nat (i := 0) base (by omega)
    refine ⟨b', ?_, r'.congr ?_⟩
    · rw [e]; simpa using e'
    · intro k hk
      by_cases hk0 : k = 0
      · subst hk0; simp [h00]
      · rw [Function.update_of_ne hk0]
        have : ¬ ((k : Int) < 1) := by omega
        simp [this]
  · exact h.congr (fun k hk => by simp [show (k : Int) < n + 1 by omega])
  · intro i s h1 h2 hs
    obtain ⟨q, rfl⟩ : ∃ q : Nat, i = (q : Int) + 1 := ⟨(i - 1).toNat, by omega⟩
    have : rd s ((q : Int) + 1 - 1) = some (st (q + 1) : Int) := by
      rw [show ((q : Int) + 1 - 1) = ((q : Nat) : Int) by omega, hs.rd_nat (by omega)]
      simp [show ((q : Int) < q + 1 + 1) by omega, show q < n by omega]
    rw [this]
    simp only [Option.bind_eq_bind, Option.bind_some]
    obtain ⟨b, e, r⟩ := hs.wr_nat (i := q + 1) ((st (q + 1) : Int) + base) (by omega)
    refine ⟨b, by simpa using e, r.congr ?_⟩
    intro k _
    by_cases e1 : k = q + 1
    · subst e1; simp
    · rw [Function.update_of_ne e1]
      by_cases hlt : (k : Int) < q + 1
      · simp [hlt, show (k : Int) < q + 1 + 1 by omega]
      · simp [hlt, show ¬ (k : Int) < q + 1 + 1 by omega]

end Verif
