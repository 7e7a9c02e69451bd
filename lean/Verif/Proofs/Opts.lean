/-
Names and numbers in text: the model against the specification.
-/
import Verif.Spec.Opts

namespace Verif
namespace Proofs
open Model Spec

theorem isSpc_lower (c : Char) : isSpc (lowerC c) = isSpc c := by
  unfold lowerC
  split
  · rename_i h
    obtain ⟨h1, h2⟩ := h
    have h1' : 65 ≤ c.toNat := h1
    have h2' : c.toNat ≤ 90 := h2
    have e : c = Char.ofNat c.toNat := (Char.ofNat_toNat c).symm
    generalize c.toNat = k at h1' h2' e
    subst e
    have hall : ∀ k : Fin 26, isSpc (Char.ofNat (k.1 + 65 + 32)) =
        isSpc (Char.ofNat (k.1 + 65)) := by decide +kernel
    have := hall ⟨k - 65, by omega⟩
    simpa only [Nat.sub_add_cancel h1'] using this
  · rfl

/-- the words before lower case -/
def ws (s : Str) : List Str := (s.splitOnP isSpc).filter (· ≠ [])

theorem ws_nil : ws [] = [] := by simp [ws]

theorem ws_blank {c : Char} (h : isSpc c = true) (s : Str) : ws (c :: s) = ws s := by
  simp [ws, List.splitOnP_cons_eq_if_modifyHead, h]

theorem ws_append_blank {c : Char} (h : isSpc c = true) (s : Str) : ws (s ++ [c]) = ws s := by
  unfold ws
  rw [List.splitOnP_append_cons s [] h]
  simp

theorem ws_dropWhile (s : Str) : ws (s.dropWhile isSpc) = ws s := by
  induction s with
  | nil => rfl
  | cons c s ih =>
    by_cases h : isSpc c = true
    · rw [List.dropWhile_cons_of_pos h, ih, ws_blank h]
    · rw [List.dropWhile_cons_of_neg h]

theorem ws_rdrop (s : Str) : ws (s.reverse.dropWhile isSpc).reverse = ws s := by
  obtain ⟨t, rfl⟩ : ∃ t : Str, s = t.reverse := ⟨s.reverse, by simp⟩
  rw [List.reverse_reverse]
  induction t with
  | nil => rfl
  | cons c t ih =>
    by_cases h : isSpc c = true
    · rw [List.dropWhile_cons_of_pos h, ih, List.reverse_cons, ws_append_blank h]
    · rw [List.dropWhile_cons_of_neg h]

/-- no blank at the end -/
def NoTrail (s : Str) : Prop := ∀ t c, s = t ++ [c] → isSpc c = false

theorem NoTrail.tail {c : Char} {s : Str} (h : NoTrail (c :: s)) : NoTrail s :=
  fun t d e => h (c :: t) d (by rw [e]; rfl)

theorem ws_ne_nil {s : Str} (h : NoTrail s) (hs : s ≠ []) : ws s ≠ [] := by
  rcases List.eq_nil_or_concat s with e | ⟨t, c, e⟩
  · exact absurd e hs
  rw [List.concat_eq_append] at e
  subst e
  have hc := h t c rfl
  clear h hs
  induction t with
  | nil => simp [ws, List.splitOnP_cons_eq_if_modifyHead, hc]
  | cons d t ih =>
    by_cases hd : isSpc d = true
    · rw [List.cons_append, ws_blank hd]; exact ih
    · unfold ws
      rw [List.cons_append, List.splitOnP_cons_eq_if_modifyHead, if_neg hd]
      cases h : (t ++ [c]).splitOnP isSpc with
      | nil => exact absurd h (List.splitOnP_ne_nil _ _)
      | cons a l => simp [List.modifyHead]

theorem squeeze_ws (s : Str) (h : NoTrail s) :
    squeeze true s = [' '].intercalate (ws s) ∧
    (∀ c t, s = c :: t → isSpc c = false → squeeze false s = squeeze true s) := by
  induction s with
  | nil => exact ⟨by simp [squeeze, ws_nil], fun c t e => by cases e⟩
  | cons c s ih =>
    obtain ⟨ih1, ih2⟩ := ih h.tail
    by_cases hc : isSpc c = true
    · refine ⟨?_, fun d t e hd => by cases e; rw [hd] at hc; cases hc⟩
      rw [ws_blank hc, ← ih1]
      simp [squeeze, hc]
    · have hsq : ∀ b, squeeze b (c :: s) = c :: squeeze false s := fun b => by simp [squeeze, hc]
      refine ⟨?_, fun d t e hd => by rw [hsq, hsq]⟩
      rw [hsq]
      cases s with
      | nil =>
        simp [squeeze, ws, List.splitOnP_cons_eq_if_modifyHead, hc]
      | cons d t =>
        by_cases hd : isSpc d = true
        · have e1 : squeeze false (d :: t) = ' ' :: squeeze true t := by simp [squeeze, hd]
          have e2 : squeeze true (d :: t) = squeeze true t := by simp [squeeze, hd]
          rw [e1, ← e2, ih1]
          have hw : ws (c :: d :: t) = [c] :: ws (d :: t) := by
            unfold ws
            rw [List.splitOnP_cons_eq_if_modifyHead, if_neg hc, List.splitOnP_cons_eq_if_modifyHead, if_pos hd]
            simp [List.modifyHead]
          rw [hw, List.intercalate_cons_of_ne_nil (ws_ne_nil h.tail (by simp))]
          rfl
        · rw [ih2 d t rfl (by simpa using hd), ih1]
          unfold ws
          rw [List.splitOnP_cons_eq_if_modifyHead (x := c), if_neg hc]
          rw [List.splitOnP_cons_eq_if_modifyHead, if_neg hd]
          cases h : t.splitOnP isSpc with
          | nil => exact absurd h (List.splitOnP_ne_nil _ _)
          | cons a l => simp [List.modifyHead, List.intercalate_cons_cons_left]

theorem noTrail_rdrop (s : Str) : NoTrail (s.reverse.dropWhile isSpc).reverse := by
  intro t c e
  have : s.reverse.dropWhile isSpc = c :: t.reverse := by
    rw [← List.reverse_reverse (List.dropWhile _ _), e]; simp
  have h := List.head?_dropWhile_not isSpc s.reverse
  rw [this] at h
  simpa using h

theorem noLead_rdrop {s : Str} (h : ∀ c t, s = c :: t → isSpc c = false) :
    ∀ c t, (s.reverse.dropWhile isSpc).reverse = c :: t → isSpc c = false := by
  intro c t e
  have h1 : (s.reverse.dropWhile isSpc) <:+ s.reverse := List.dropWhile_suffix _
  have h2 : (s.reverse.dropWhile isSpc).reverse <+: s := by
    have := List.reverse_prefix.2 h1
    rwa [List.reverse_reverse] at this
  rw [e] at h2
  obtain ⟨r, hr⟩ := h2
  exact h c (t ++ r) (by rw [← hr]; rfl)

/-- **PrepareString**: the words, with one blank between -/
theorem prepStr_eq (s : Str) : prepStr s = [' '].intercalate (words s) := by
  have hlead : ∀ c t, s.dropWhile isSpc = c :: t → isSpc c = false := by
    intro c t e
    have h := List.head?_dropWhile_not isSpc s
    rw [e] at h
    simpa using h
  have hmap : ∀ l : List Str, ([' '].intercalate l).map lowerC = [' '].intercalate (l.map (·.map lowerC)) := by
    intro l
    induction l with
    | nil => rfl
    | cons a l ih =>
      cases l with
      | nil => simp
      | cons b l =>
        rw [List.intercalate_cons_of_ne_nil (by simp), List.map_cons, List.map_append, List.map_append, ih,
          List.intercalate_cons_of_ne_nil (by simp)]
        rfl
  have hn := noTrail_rdrop (s.dropWhile isSpc)
  have hl := noLead_rdrop hlead
  show (squeeze false ((s.dropWhile isSpc).reverse.dropWhile isSpc).reverse).map lowerC = _
  have e : squeeze false ((s.dropWhile isSpc).reverse.dropWhile isSpc).reverse = [' '].intercalate (ws s) := by
    rw [← ws_dropWhile s, ← ws_rdrop (s.dropWhile isSpc), ← (squeeze_ws _ hn).1]
    cases h : ((s.dropWhile isSpc).reverse.dropWhile isSpc).reverse with
    | nil => rfl
    | cons c t => exact h ▸ (squeeze_ws _ hn).2 c t h (hl c t h)
  rw [e, hmap]
  rfl

theorem words_clean {s : Str} {w : Str} (hw : w ∈ words s) : w ≠ [] ∧ ' ' ∉ w := by
  have hsplit : ∀ (s : Str) (w : Str), w ∈ s.splitOnP isSpc → ∀ c ∈ w, isSpc c = false := by
    intro s
    induction s with
    | nil => intro w hw c hc; simp at hw; subst hw; cases hc
    | cons d s ih =>
      intro w hw c hc
      rw [List.splitOnP_cons_eq_if_modifyHead] at hw
      split at hw
      · rcases List.mem_cons.1 hw with rfl | hw
        · cases hc
        · exact ih w hw c hc
      · rename_i hd
        cases h : s.splitOnP isSpc with
        | nil => exact absurd h (List.splitOnP_ne_nil _ _)
        | cons a l =>
          rw [h] at hw ih
          simp only [List.modifyHead] at hw
          rcases List.mem_cons.1 hw with rfl | hw
          · rcases List.mem_cons.1 hc with rfl | hc
            · simpa using hd
            · exact ih a (by simp) c hc
          · exact ih w (by simp [hw]) c hc
  unfold words at hw
  obtain ⟨v, hv, rfl⟩ := List.mem_map.1 hw
  obtain ⟨hv1, hv2⟩ := List.mem_filter.1 hv
  refine ⟨by simpa using hv2, fun hc => ?_⟩
  obtain ⟨c, hc1, hc2⟩ := List.mem_map.1 hc
  have h1 := hsplit s v hv1 c hc1
  rw [← isSpc_lower, hc2] at h1
  exact absurd h1 (by decide)

/-- two texts are the same to the registry when they have the same words -/
theorem prepStr_inj (s t : Str) : prepStr s = prepStr t ↔ words s = words t := by
  refine ⟨fun h => ?_, fun h => by rw [prepStr_eq, prepStr_eq, h]⟩
  rw [prepStr_eq, prepStr_eq] at h
  have hne : ∀ s : Str, words s ≠ [] → [' '].intercalate (words s) ≠ [] := by
    intro s hs
    cases e : words s with
    | nil => exact absurd e hs
    | cons a l =>
      have ha : a ≠ [] := (words_clean (s := s) (by rw [e]; simp)).1
      cases a with
      | nil => exact absurd rfl ha
      | cons c a => rw [List.intercalate_cons_cons_left]; simp
  by_cases hs : words s = []
  · by_cases ht : words t = []
    · rw [hs, ht]
    · rw [hs] at h
      exact absurd h.symm (hne t ht)
  · by_cases ht : words t = []
    · rw [ht] at h
      exact absurd h (hne s hs)
    · have h1 := List.splitOn_intercalate (ls := words s) ' ' (fun l hl => (words_clean hl).2) hs
      have h2 := List.splitOn_intercalate (ls := words t) ' ' (fun l hl => (words_clean hl).2) ht
      rw [← h1, h, h2]

/-! ### numbers -/

theorem digits_spec (ds rest : Str) (hd : ∀ c ∈ ds, c.isDigit = true)
    (hr : ∀ c t, rest = c :: t → c.isDigit = false) (acc : Nat) (any : Bool) :
    digits (ds ++ rest) acc any = (ds.foldl (fun a c => 10 * a + (c.toNat - 48)) acc, any || decide (ds ≠ [])) := by
  induction ds generalizing acc any with
  | nil =>
    cases rest with
    | nil => simp [digits]
    | cons c t => simp [digits, hr c t rfl]
  | cons c ds ih =>
    rw [List.cons_append, digits, if_pos (hd c (by simp)), ih (fun c hc => hd c (by simp [hc]))]
    simp only [List.foldl_cons, Bool.true_or, ne_eq, reduceCtorEq, not_false_eq_true, decide_true, Bool.or_true]
    rw [Nat.mul_comm 10 acc]
    rfl

theorem split_digits (s : Str) : ∃ ds rest : Str, s = ds ++ rest ∧ (∀ c ∈ ds, c.isDigit = true) ∧
    (∀ c t, rest = c :: t → c.isDigit = false) := by
  induction s with
  | nil => exact ⟨[], [], rfl, by simp, by simp⟩
  | cons c s ih =>
    by_cases h : c.isDigit = true
    · obtain ⟨ds, rest, rfl, h1, h2⟩ := ih
      exact ⟨c :: ds, rest, rfl, fun d hd => by rcases List.mem_cons.1 hd with rfl | hd; exacts [h, h1 d hd], h2⟩
    · exact ⟨[], c :: s, rfl, by simp, fun d t e => by cases e; simpa using h⟩

theorem isDigit_not_spc {c : Char} (h : c.isDigit = true) : isSpc c = false ∧ c ≠ '-' ∧ c ≠ '+' := by
  have h' : 48 ≤ c.toNat ∧ c.toNat ≤ 57 := by
    simp only [Char.isDigit, Bool.and_eq_true, decide_eq_true_eq] at h
    exact h
  refine ⟨?_, ?_, ?_⟩
  · unfold isSpc
    rw [decide_eq_false (p := c.toNat ≤ 13) (by omega), Bool.and_false, Bool.or_false, beq_eq_false_iff_ne]
    rintro rfl
    exact absurd h'.1 (by decide)
  · rintro rfl; exact absurd h'.1 (by decide)
  · rintro rfl; exact absurd h'.1 (by decide)

theorem dropWhile_blanks {b t : Str} (hb : ∀ c ∈ b, isSpc c = true) (ht : ∀ c r, t = c :: r → isSpc c = false) :
    (b ++ t).dropWhile isSpc = t := by
  induction b with
  | nil =>
    cases t with
    | nil => rfl
    | cons c r => rw [List.nil_append, List.dropWhile_cons_of_neg (by simp [ht c r rfl])]
  | cons c b ih =>
    rw [List.cons_append, List.dropWhile_cons_of_pos (hb c (by simp)), ih (fun c hc => hb c (by simp [hc]))]

/-- what is read after the sign -/
def signSplit (s : Str) : Bool × Str :=
  match s with
  | '-' :: s => (true, s)
  | '+' :: s => (false, s)
  | s => (false, s)

theorem stoi_def (s : Str) : stoi s =
    if (digits (signSplit (s.dropWhile isSpc)).2 0 false).2 = false then none
    else if (if (signSplit (s.dropWhile isSpc)).1 then -((digits (signSplit (s.dropWhile isSpc)).2 0 false).1 : Int)
          else (digits (signSplit (s.dropWhile isSpc)).2 0 false).1) < -2147483648 ∨
        2147483647 < (if (signSplit (s.dropWhile isSpc)).1 then
          -((digits (signSplit (s.dropWhile isSpc)).2 0 false).1 : Int)
          else (digits (signSplit (s.dropWhile isSpc)).2 0 false).1) then none
    else some (if (signSplit (s.dropWhile isSpc)).1 then
      -((digits (signSplit (s.dropWhile isSpc)).2 0 false).1 : Int)
      else (digits (signSplit (s.dropWhile isSpc)).2 0 false).1) := rfl

theorem signSplit_plain {s : Str} (h : ∀ c t, s = c :: t → c ≠ '-' ∧ c ≠ '+') : signSplit s = (false, s) := by
  unfold signSplit
  split
  · exact absurd rfl (h _ _ rfl).1
  · exact absurd rfl (h _ _ rfl).2
  · rfl

theorem stoi_of_text {s : Str} {v : Int} (h : IntText s v) :
    stoi s = if v < -2147483648 ∨ 2147483647 < v then none else some v := by
  obtain ⟨b, sg, ds, rest, rfl, hb, hsg, hne, hds, hr, hv⟩ := h
  have hdr : ∀ c t, ds ++ rest = c :: t → c.isDigit = true := by
    intro c t e
    cases ds with
    | nil => exact absurd rfl hne
    | cons d ds => cases e; exact hds _ (by simp)
  have hdrop : (b ++ sg ++ ds ++ rest).dropWhile isSpc = sg ++ (ds ++ rest) := by
    rw [List.append_assoc, List.append_assoc]
    apply dropWhile_blanks hb
    intro c t e
    rcases hsg with rfl | rfl | rfl
    · exact (isDigit_not_spc (hdr c t e)).1
    · cases e; decide
    · cases e; decide
  have hsplit : signSplit (sg ++ (ds ++ rest)) = (decide (sg = ['-']), ds ++ rest) := by
    rcases hsg with rfl | rfl | rfl
    · rw [List.nil_append, signSplit_plain (fun c t e => (isDigit_not_spc (hdr c t e)).2)]
      simp
    · rfl
    · rfl
  rw [stoi_def, hdrop, hsplit]
  dsimp only
  rw [digits_spec ds rest hds hr]
  simp only [Bool.false_or, ne_eq, hne, not_false_eq_true, decide_true, Bool.true_eq_false, if_false]
  have : (if decide (sg = ['-']) = true then -((ds.foldl (fun a c => 10 * a + (c.toNat - 48)) 0 : Nat) : Int)
      else ((ds.foldl (fun a c => 10 * a + (c.toNat - 48)) 0 : Nat) : Int)) = v := by
    rw [hv]
    simp only [decide_eq_true_eq]
    rfl
  rw [this]

theorem stoi_some {s : Str} {v : Int} (h : stoi s = some v) : IntText s v := by
  obtain ⟨b, t, rfl, hb, ht⟩ : ∃ b t : Str, s = b ++ t ∧ (∀ c ∈ b, isSpc c = true) ∧
      (∀ c r, t = c :: r → isSpc c = false) := by
    refine ⟨s.takeWhile isSpc, s.dropWhile isSpc, List.takeWhile_append_dropWhile.symm, fun c hc => ?_, fun c r e => ?_⟩
    · have := List.all_takeWhile (p := isSpc) (l := s)
      exact List.all_eq_true.1 this c hc
    · have h := List.head?_dropWhile_not isSpc s
      rw [e] at h
      simpa using h
  rw [stoi_def, dropWhile_blanks hb ht] at h
  obtain ⟨sg, u, hsg, hspl, he⟩ : ∃ sg u : Str, (sg = [] ∨ sg = ['+'] ∨ sg = ['-']) ∧
      signSplit t = (decide (sg = ['-']), u) ∧ t = sg ++ u := by
    unfold signSplit
    split
    · exact ⟨['-'], _, by simp, by simp, rfl⟩
    · exact ⟨['+'], _, by simp, by simp, rfl⟩
    · exact ⟨[], t, by simp, by simp, rfl⟩
  obtain ⟨ds, rest, rfl, hds, hr⟩ := split_digits u
  rw [hspl] at h
  dsimp only at h
  rw [digits_spec ds rest hds hr] at h
  simp only [Bool.false_or] at h
  rcases ite_or h with ⟨-, h⟩ | ⟨hne, h⟩
  · cases h
  have hne' : ds ≠ [] := by
    intro e; apply hne; simp [e]
  rcases ite_or h with ⟨-, h⟩ | ⟨-, h⟩
  · cases h
  cases h
  refine ⟨b, sg, ds, rest, by rw [he]; simp, hb, hsg, hne', hds, hr, ?_⟩
  simp only [decide_eq_true_eq]
  rfl

end Proofs
end Verif
